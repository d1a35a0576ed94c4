import Verif.Props.VoxelDisplay
import Verif.Props.Pipeline
/-!
# C73 The voxel display: histories

What the display shows after any history of messages, loaded files, changed settings and frames; that it finishes drawing; and how large the cubes are.
-/
namespace Wavemap
open NdtreeIndex NTree Haar

/-! ## Specification -/

open Classical in
/-- The display shows the map: the nodes that the settings select, out of a set of nodes that divide the map, each once as a cube with its position, size and color.
In the block with index `k` no node is smaller than height `lod k`. -/
def VoxelDisplay.Shows (s : VoxelDisplay) (m : HashedWaveletOctree) (lod : Index 3 → Int) : Prop :=
  (∀ k, (m.blocks.getBlock k).isSome = true → 0 ≤ lod k) ∧
  ∃ nodes, LodCover m lod nodes ∧
    s.shown.Perm ((nodes.filter fun n => decide (s.selector.Selects m.getNodeValue n)).map
      fun n => nodeCube m.config.minCellWidth s.colour n (m.getNodeValue n))

/-- Height `h` suits a block seen by the camera, if nodes must not be smaller than height `term`. Seen in perspective, cubes of this height are at most one cell and
`1/500` of the distance wide, or as small as allowed; and cubes of four times that width would be too wide, or larger than half the block. -/
def FitsView (camera : VoxelDisplay.Camera) (m : HashedWaveletOctree) (term : Int) (k : Index 3) (h : Int) : Prop :=
  if camera.orthographic then h = min term ((m.config.treeHeight : Int) - 1)
  else term ≤ h ∧
    (h = term ∨ ∀ p, PointInBlock m.config.minCellWidth m.config.treeHeight k p →
      ((2 ^ h.toNat - 1) * m.config.minCellWidth) ^ 2 ≤ (1 / 500) ^ 2 * sqDist camera.position p) ∧
    ((m.config.treeHeight : Int) - 2 ≤ h ∨ ∃ p, PointInBlock m.config.minCellWidth m.config.treeHeight k p ∧
      (1 / 500) ^ 2 * sqDist camera.position p < ((2 ^ (h + 2).toNat - 1) * m.config.minCellWidth) ^ 2)

/-- Nodes whose mean value has magnitude below `1/1000` are not selected, so that it does not matter that blocks of such values are skipped. -/
def CellSelector.Observed (sel : CellSelector) : Prop :=
  1 / 1000 ≤ sel.unknown ∨ match sel.mode with
    | .band => 1 / 1000 ≤ sel.bandMin
    | .surface => 1 / 1000 ≤ sel.surface

/-- The event redraws everything: the user changes a threshold, enables the voxels or loads a valid file. -/
def VoxelDisplay.Event.RedrawsAll : VoxelDisplay.Event → Prop
  | .setThresholds .. => True
  | .setVisible visible _ => visible = true
  | .load file now => ∀ old, ∃ m, streamToMap now file old = some (.returned true (some m))
  | _ => False

/-- A frame seen by this camera. -/
def VoxelDisplay.Event.SeenBy (camera : VoxelDisplay.Camera) (e : VoxelDisplay.Event) : Prop := ∃ moved sort cut, e = .frame camera moved sort cut

/-- A frame for which the camera has not moved. -/
def VoxelDisplay.Event.Still (e : VoxelDisplay.Event) : Prop := ∃ camera sort cut, e = .frame camera false sort cut

def VoxelDisplay.Event.IsFrame (e : VoxelDisplay.Event) : Prop := ∃ camera moved sort cut, e = .frame camera moved sort cut

namespace VoxelDisplay

/-! ## Levels of detail -/

theorem lodReached_mono {w d : ℚ} {a b : Nat} (hw : 0 ≤ w) (hab : a ≤ b) (h : lodReached w d b = true) : lodReached w d a = true := by
  unfold lodReached at h ⊢
  rw [decide_eq_true_eq] at h ⊢
  refine le_trans ?_ h
  have h1 : (1 : ℚ) ≤ 2 ^ a := one_le_pow₀ (by norm_num)
  have h2 : (2 : ℚ) ^ a ≤ 2 ^ b := pow_le_pow_right₀ (by norm_num) hab
  have h3 : (0 : ℚ) ≤ (2 ^ a - 1) * w / lodFactor := by
    unfold lodFactor
    exact div_nonneg (mul_nonneg (by linarith) hw) (by norm_num)
  apply pow_le_pow_left₀ h3
  unfold lodFactor
  apply div_le_div_of_nonneg_right _ (by norm_num)
  exact mul_le_mul_of_nonneg_right (by linarith) hw

theorem block_distance (H : Nat) {w : ℚ} (hw : 0 < w) (k : Index 3) (c : Point 3) :
    (∀ p, PointInBlock w H k p → (nodeIndexToAabb ⟨H, k⟩ w).minSquaredDistanceTo c ≤ sqDist c p) ∧
      ∃ p, PointInBlock w H k p ∧ (nodeIndexToAabb ⟨H, k⟩ w).minSquaredDistanceTo c = sqDist c p := by
  have hcell : heightToCellWidth w H = w * 2 ^ H := by
    unfold heightToCellWidth; rw [exp2_eq]; push_cast; rfl
  have hpos : (0 : ℚ) < w * 2 ^ H := by positivity
  have hproper : (nodeIndexToAabb (⟨H, k⟩ : NdtreeIndex 3) w).Proper := by
    intro i
    show (k i : ℚ) * heightToCellWidth w (H : Int).toNat ≤ ((k i : ℚ) + 1) * heightToCellWidth w (H : Int).toNat
    rw [Int.toNat_natCast, hcell]
    nlinarith
  obtain ⟨h1, h2, h3⟩ := C47_closest _ hproper c
  have hin : ∀ p, InAabb (nodeIndexToAabb (⟨H, k⟩ : NdtreeIndex 3) w).min (nodeIndexToAabb (⟨H, k⟩ : NdtreeIndex 3) w).max p
      ↔ PointInBlock w H k p := by
    intro p
    unfold InAabb PointInBlock
    refine forall_congr' fun i => ?_
    show (k i : ℚ) * heightToCellWidth w (H : Int).toNat ≤ p i ∧ p i ≤ ((k i : ℚ) + 1) * heightToCellWidth w (H : Int).toNat ↔ _
    rw [Int.toNat_natCast, hcell]
  rw [h3]
  exact ⟨fun p hp => h2 p ((hin p).2 hp), _, (hin _).1 h1, rfl⟩

theorem lodReached_iff {w d : ℚ} {a : Nat} : lodReached w d a = true ↔ ((2 ^ a - 1) * w) ^ 2 ≤ (1 / 500) ^ 2 * d := by
  unfold lodReached lodFactor
  rw [decide_eq_true_eq]
  constructor <;> intro h <;> nlinarith

theorem fitsView_of {camera : Camera} {m : HashedWaveletOctree} (hw : 0 < m.config.minCellWidth) {term r c : Int} {k : Index 3} (hterm : 0 ≤ term)
    (hr : recommendedHeight camera m.config.treeHeight m.config.minCellWidth k term ((m.config.treeHeight : Int) - 1) = some r)
    (h1 : term ≤ c) (h2 : r - 1 ≤ c) (h3 : c ≤ r) : FitsView camera m term k (min c ((m.config.treeHeight : Int) - 1)) := by
  unfold recommendedHeight at hr
  unfold FitsView
  split at hr
  · next ho =>
    rw [if_pos ho]
    cases hr
    have : c = term := by omega
    rw [this]
  · next ho =>
    rw [if_neg ho]
    split at hr
    · cases hr
    · next hlt =>
      rw [Option.some.injEq] at hr
      obtain ⟨d1, p0, d2, d3⟩ := block_distance m.config.treeHeight hw k camera.position
      generalize (nodeIndexToAabb ⟨m.config.treeHeight, k⟩ m.config.minCellWidth).minSquaredDistanceTo camera.position = D at *
      have hD : 0 ≤ D := by
        rw [d3]; unfold sqDist
        exact Finset.sum_nonneg fun i _ => sq_nonneg _
      have hG := Nat.findGreatest_le (P := fun level => lodReached m.config.minCellWidth D level = true) (((m.config.treeHeight : Int) - 1).toNat)
      have hGs : lodReached m.config.minCellWidth D (Nat.findGreatest (fun level => lodReached m.config.minCellWidth D level = true)
          (((m.config.treeHeight : Int) - 1).toNat)) = true :=
        Nat.findGreatest_spec (P := fun level => lodReached m.config.minCellWidth D level = true) (Nat.zero_le _)
          (lodReached_iff.2 (by norm_num; exact hD))
      have hGg : ∀ l, Nat.findGreatest (fun level => lodReached m.config.minCellWidth D level = true) (((m.config.treeHeight : Int) - 1).toNat) < l →
          l ≤ ((m.config.treeHeight : Int) - 1).toNat → ¬ lodReached m.config.minCellWidth D l = true := fun l a b => Nat.findGreatest_is_greatest a b
      generalize Nat.findGreatest (fun level => lodReached m.config.minCellWidth D level = true) (((m.config.treeHeight : Int) - 1).toNat) = G at *
      have hcH : c ≤ (m.config.treeHeight : Int) - 1 := by omega
      rw [min_eq_left hcH]
      refine ⟨h1, ?_, ?_⟩
      · by_cases hct : c = term
        · exact .inl hct
        · right
          intro p hp
          have := lodReached_iff.1 (lodReached_mono hw.le (show c.toNat ≤ G by omega) hGs)
          have h5 := d1 p hp
          linarith [mul_le_mul_of_nonneg_left h5 (show (0 : ℚ) ≤ (1 / 500) ^ 2 by norm_num)]
      · by_cases hcc : (m.config.treeHeight : Int) - 2 ≤ c
        · exact .inl hcc
        · right
          refine ⟨p0, d2, ?_⟩
          have := hGg (c + 2).toNat (by omega) (by omega)
          rw [lodReached_iff, not_le] at this
          rw [← d3]
          exact this

/-! ## Frames -/

theorem frame_kept {H : Nat} {w : ℚ} {camera : Camera} {moved : Bool} {sort : List QueuedBlock → List QueuedBlock} (hsort : ∀ l, (sort l).Perm l)
    {cut : Nat} {s s' : VoxelDisplay} (hu : s.Uniform H w) (hb : s.Base H w) (h : s.prerender camera moved sort cut = .done s') : Kept s s' := by
  by_cases hc : s.visible = true ∧ ∃ m, s.map = some (.hashedWavelet m)
  · obtain ⟨hv, m, hm⟩ := hc
    exact (prerender_spec hsort hm hv hu hb h).1
  · have hi : s.visible = false ∨ ∀ m, s.map ≠ some (.hashedWavelet m) := by
      cases hv : s.visible with
      | false => exact .inl rfl
      | true => exact .inr fun m hm => hc ⟨hv, m, hm⟩
    rcases prerender_idle hi h with rfl | rfl
    · exact .refl _
    · exact ⟨rfl, rfl, rfl, rfl, rfl, rfl, rfl⟩

theorem frames_kept {H : Nat} {w : ℚ} : ∀ {es : List Event} {s s' : VoxelDisplay}, (∀ e ∈ es, e.sorts) → (∀ e ∈ es, e.IsFrame) → s.Uniform H w → s.Base H w →
    run es s = .done s' → Kept s s' := by
  intro es
  induction es with
  | nil => intro s s' _ _ _ _ h; cases h; exact .refl _
  | cons e es ih =>
    intro s s' hs hfr hu hb h
    obtain ⟨s1, h1, h2⟩ := run_cons h
    have hse := hs e List.mem_cons_self
    obtain ⟨camera, moved, sort, cut, rfl⟩ := hfr e List.mem_cons_self
    have hk : Kept s s1 := frame_kept hse hu hb h1
    have hu1 : s1.Uniform H w := by unfold Uniform; rw [hk.map]; exact hu
    exact hk.trans (ih (fun e he => hs e (List.mem_cons_of_mem _ he)) (fun e he => hfr e (List.mem_cons_of_mem _ he)) hu1 (step_base hse hu hu1 hb h1) h2)

/-- Frames seen by one camera: the levels of detail suit it from the first on for which they are updated. -/
theorem frames_lod {H : Nat} {w : ℚ} {camera : Camera} {m : HashedWaveletOctree} : ∀ {es : List Event} {s s' : VoxelDisplay}, (∀ e ∈ es, e.sorts) →
    (∀ e ∈ es, e.SeenBy camera) → s.map = some (.hashedWavelet m) → s.visible = true → s.Uniform H w → s.Base H w → s.LodOk camera m →
    run es s = .done s' → s'.LodOk camera m := by
  intro es
  induction es with
  | nil => intro s s' _ _ _ _ _ _ hl h; cases h; exact hl
  | cons e es ih =>
    intro s s' hs hfr hm hv hu hb hl h
    obtain ⟨s1, h1, h2⟩ := run_cons h
    obtain ⟨moved, sort, cut, rfl⟩ := hfr e List.mem_cons_self
    obtain ⟨g1, _, g3, _, g5, _⟩ := prerender_spec (hs _ List.mem_cons_self) hm hv hu hb h1
    exact ih (fun e he => hs e (List.mem_cons_of_mem _ he)) (fun e he => hfr e (List.mem_cons_of_mem _ he)) (by rw [g1.map]; exact hm)
      (by rw [g1.visible]; exact hv) (by unfold Uniform; rw [g1.map]; exact hu) g3 (g5 (.inr (.inr hl))) h2

/-- Frames for which the camera does not move shorten the queue. -/
theorem frames_shrink {H : Nat} {w : ℚ} {m : HashedWaveletOctree} : ∀ {es : List Event} {s s' : VoxelDisplay}, (∀ e ∈ es, e.sorts) → (∀ e ∈ es, e.Still) →
    s.map = some (.hashedWavelet m) → s.visible = true → s.selector.accelerator = some s.version → s.Uniform H w → s.Base H w → s.forceLod = false →
    run es s = .done s' → s'.queue = [] ∨ s'.queue.length + es.length ≤ s.queue.length := by
  intro es
  induction es with
  | nil => intro s s' _ _ _ _ _ _ _ _ h; cases h; exact .inr (le_refl _)
  | cons e es ih =>
    intro s s' hs hfr hm hv ha hu hb hf h
    obtain ⟨s1, h1, h2⟩ := run_cons h
    obtain ⟨camera, sort, cut, rfl⟩ := hfr e List.mem_cons_self
    obtain ⟨g1, g2, g3, _, _, g6⟩ := prerender_spec (hs _ List.mem_cons_self) hm hv hu hb h1
    obtain ⟨g7, g8⟩ := g6 hf rfl
    rcases ih (fun e he => hs e (List.mem_cons_of_mem _ he)) (fun e he => hfr e (List.mem_cons_of_mem _ he)) (by rw [g1.map]; exact hm)
      (by rw [g1.visible]; exact hv) (by rw [g1.selector, g1.version]; exact ha) (by unfold Uniform; rw [g1.map]; exact hu) g3 g2 h2 with h3 | h3
    · exact .inl h3
    · cases hq : s.queue with
      | nil =>
        rw [hq] at g7
        have : s1.queue.length = 0 := by simpa using g7
        left
        apply List.eq_nil_of_length_eq_zero
        omega
      | cons x l =>
        have hx : s.queue.hasBlock x.1 = true := by
          rw [SpatialHash.hasBlock_iff, hq]; exact List.mem_cons_self
        have := g8 ⟨x.1, hx, (hb.synced m hm ha).2 _ hx⟩
        right
        rw [hq] at this
        rw [List.length_cons]
        omega

theorem queue_length_le {H : Nat} {w : ℚ} {m : HashedWaveletOctree} {s : VoxelDisplay} (hb : s.Base H w) (hm : s.map = some (.hashedWavelet m))
    (ha : s.selector.accelerator = some s.version) : s.queue.length ≤ m.blocks.length := by
  have hsub : s.queue.keys ⊆ m.blocks.keys := fun k hk => SpatialHash.hasBlock_iff.1 ((hb.synced m hm ha).2 k (SpatialHash.hasBlock_iff.2 hk))
  have := (List.subperm_of_subset hb.queueKeys hsub).length_le
  simpa [SpatialHash.keys] using this

theorem observed_selects {sel : CellSelector} (ho : sel.Observed) {value : NdtreeIndex 3 → ℚ} {n : NdtreeIndex 3} (h : sel.Selects value n) :
    1 / 1000 ≤ |value n| := by
  unfold CellSelector.Observed at ho
  unfold CellSelector.Selects at h
  rcases ho with ho | ho
  · exact le_trans ho h.1
  · cases hmode : sel.mode with
    | band =>
      rw [hmode] at h ho
      exact le_trans (le_trans ho h.2.1) (le_abs_self _)
    | surface =>
      rw [hmode] at h ho
      exact le_trans (le_trans ho h.2.1) (le_abs_self _)

theorem shows_of {H : Nat} {w : ℚ} {s : VoxelDisplay} {m : HashedWaveletOctree} (hm : s.map = some (.hashedWavelet m))
    (hacc : s.selector.accelerator = some s.version) (hb : s.Base H w) (hq : s.queue = []) (hf : s.Fresh m) (hs : m.Sound) (ho : s.selector.Observed) :
    ∃ lod, s.Shows m lod ∧ ∀ camera, s.LodOk camera m → ∀ k, (m.blocks.getBlock k).isSome = true → FitsView camera m s.termHeight k (lod k) := by
  obtain ⟨lod, nodes, h1, h2, h3⟩ := shown_spec hm hacc hb hq hf hs fun n hn => observed_selects ho hn
  refine ⟨lod, ⟨fun k hk => (h2 k hk).1, nodes, h1, h3⟩, fun camera hl k hk => ?_⟩
  obtain ⟨b, hkb⟩ := Option.isSome_iff_exists.1 hk
  obtain ⟨_, h, h4, h5⟩ := h2 k hk
  obtain ⟨r, h6, h7⟩ := hl k b hkb
  rw [h5]
  rcases h7 with h7 | ⟨_, h7⟩
  · rw [hq] at h7; cases h7
  · obtain ⟨a1, a2, a3⟩ := h7 h h4
    exact fitsView_of hs.width hb.term h6 a1 a2 a3

theorem run_then {es fs : List Event} : ∀ {s s1 : VoxelDisplay}, run es s = .done s1 → run (es ++ fs) s = run fs s1 := by
  induction es with
  | nil => intro s s1 h; cases h; rfl
  | cons e es ih =>
    intro s s1 h
    obtain ⟨s2, h1, h2⟩ := run_cons h
    simp only [List.cons_append, run, h1, Outcome.bind]
    exact ih h2

/-- The state after an event that redraws everything. -/
theorem redraws_step {s s' : VoxelDisplay} {e : Event} (he : e.RedrawsAll) (h : s.step e = .done s') :
    ∃ (s0 : VoxelDisplay) (now : ℚ), s0.updateMap true now = .done s' := by
  cases e with
  | setThresholds a b c d now => exact ⟨_, now, h⟩
  | setVisible visible now =>
    have he : visible = true := he
    subst he
    simp only [step, if_true] at h
    exact ⟨_, now, h⟩
  | load file now =>
    obtain ⟨m, hl⟩ := he s.map
    simp only [step, hl] at h
    exact ⟨_, now, h⟩
  | message => exact absurd he id
  | sourceMode => exact absurd he id
  | reset => exact absurd he id
  | setMode => exact absurd he id
  | setColour => exact absurd he id
  | setTermHeight => exact absurd he id
  | frame => exact absurd he id

end VoxelDisplay

open VoxelDisplay

/-! ## C73 -/

/-- C73, display of a band of values: after any history in which times increase, all maps have the same cell width and tree height, the frame of the last message was
known and the display was not reset, once the queue is empty, the display shows the map. Missing from the property: the histories excluded, see the `_fails` theorems;
maps of other types; and the mode in which surfaces are shown, see `C73_redrawn_partial`. -/
theorem C73_band_partial {H : Nat} {w : ℚ} {es : List Event} {s : VoxelDisplay} {m : HashedWaveletOctree} (hrun : run es {} = .done s)
    (hsort : ∀ e ∈ es, e.sorts) (hreset : ∀ e ∈ es, e ≠ .reset) (htime : Increasing 0 es) (hres : OneResolution H w es {}) (hplaced : lastPlaced es = true)
    (hv : s.visible = true) (hm : s.map = some (.hashedWavelet m)) (hs : m.Sound) (hmode : s.selector.mode = .band) (ho : s.selector.Observed)
    (hq : s.queue = []) : ∃ lod, s.Shows m lod := by
  have hb := run_base hsort hres (base_init H w) hrun
  have hc : s.Current := run_current true hsort hres (base_init H w) (fun _ m hm => by cases hm) hrun hplaced
  have hf : s.BandFresh := run_fresh hsort hreset htime (le_refl _) hres (base_init H w) (fun m hm => by cases hm) hrun
  obtain ⟨lod, h1, _⟩ := shows_of hm (hc m hm hv) hb hq (hf m hm hv hmode) hs ho
  exact ⟨lod, h1⟩

/-- C73, the view: if moreover the last frames are seen by one camera, and the camera moved before the first of them, the sizes of the cubes suit it. -/
theorem C73_view_partial {H : Nat} {w : ℚ} {es frames : List Event} {s : VoxelDisplay} {m : HashedWaveletOctree} {camera : Camera}
    {sort : List QueuedBlock → List QueuedBlock} {cut : Nat}
    (hrun : run (es ++ .frame camera true sort cut :: frames) {} = .done s) (hframes : ∀ e ∈ frames, e.SeenBy camera)
    (hsort : ∀ e ∈ es ++ .frame camera true sort cut :: frames, e.sorts) (hreset : ∀ e ∈ es, e ≠ .reset)
    (htime : Increasing 0 (es ++ .frame camera true sort cut :: frames)) (hres : OneResolution H w (es ++ .frame camera true sort cut :: frames) {})
    (hplaced : lastPlaced (es ++ .frame camera true sort cut :: frames) = true)
    (hv : s.visible = true) (hm : s.map = some (.hashedWavelet m)) (hs : m.Sound) (hmode : s.selector.mode = .band) (ho : s.selector.Observed)
    (hq : s.queue = []) :
    ∃ lod, s.Shows m lod ∧ ∀ k, (m.blocks.getBlock k).isSome = true → FitsView camera m s.termHeight k (lod k) := by
  have hb := run_base hsort hres (base_init H w) hrun
  have hc : s.Current := run_current true hsort hres (base_init H w) (fun _ m hm => by cases hm) hrun hplaced
  have hf : s.BandFresh := by
    refine run_fresh hsort (fun e he => ?_) htime (le_refl _) hres (base_init H w) (fun m hm => by cases hm) hrun
    rcases List.mem_append.1 he with he | he
    · exact hreset e he
    · rcases List.mem_cons.1 he with rfl | he
      · exact fun h => by cases h
      · obtain ⟨_, _, _, rfl⟩ := hframes e he
        exact fun h => by cases h
  obtain ⟨lod, h1, h2⟩ := shows_of hm (hc m hm hv) hb hq (hf m hm hv hmode) hs ho
  refine ⟨lod, h1, h2 camera ?_⟩
  obtain ⟨s1, r1, r2⟩ := run_append hrun
  obtain ⟨s2, r3, r4⟩ := run_cons r2
  have hb1 := run_base (fun e he => hsort e (List.mem_append_left _ he)) (fun p hp => hres p (hp.trans (List.prefix_append _ _))) (base_init H w) r1
  have hu1 : s1.Uniform H w := hres es (List.prefix_append _ _) s1 r1
  have hsf : (Event.frame camera true sort cut).sorts := hsort _ (List.mem_append_right _ List.mem_cons_self)
  have hsfs : ∀ e ∈ frames, e.sorts := fun e he => hsort e (List.mem_append_right _ (List.mem_cons_of_mem _ he))
  have hk1 : Kept s1 s2 := frame_kept hsf hu1 hb1 r3
  have hu2 : s2.Uniform H w := by unfold Uniform; rw [hk1.map]; exact hu1
  have hb2 : s2.Base H w := step_base hsf hu1 hu2 hb1 r3
  have hk2 : Kept s2 s := frames_kept hsfs (fun e he => by obtain ⟨a, b, c, rfl⟩ := hframes e he; exact ⟨_, _, _, _, rfl⟩) hu2 hb2 r4
  have hm2 : s2.map = some (.hashedWavelet m) := by rw [← hk2.map]; exact hm
  have hv2 : s2.visible = true := by rw [← hk2.visible]; exact hv
  obtain ⟨_, _, _, _, g5, _⟩ := prerender_spec hsf (by rw [← hk1.map]; exact hm2) (by rw [← hk1.visible]; exact hv2) hu1 hb1 r3
  exact frames_lod hsfs hframes hm2 hv2 hu2 hb2 (g5 (.inr (.inl rfl))) r4

/-- C73, both modes: if since the last event that redraws everything there have only been frames, whatever was before (with maps of one cell width and tree height),
once the queue is empty, the display shows the map. If one camera saw these frames, the sizes of the cubes suit it. -/
theorem C73_redrawn_partial {H : Nat} {w : ℚ} {es frames : List Event} {e : Event} {s : VoxelDisplay} {m : HashedWaveletOctree}
    (hrun : run (es ++ e :: frames) {} = .done s) (he : e.RedrawsAll) (hframes : ∀ e ∈ frames, e.IsFrame)
    (hsort : ∀ e' ∈ es ++ e :: frames, e'.sorts) (hres : OneResolution H w (es ++ e :: frames) {})
    (hv : s.visible = true) (hm : s.map = some (.hashedWavelet m)) (hs : m.Sound) (ho : s.selector.Observed) (hq : s.queue = []) :
    ∃ lod, s.Shows m lod ∧ ∀ camera, (∀ e ∈ frames, e.SeenBy camera) → ∀ k, (m.blocks.getBlock k).isSome = true → FitsView camera m s.termHeight k (lod k) := by
  obtain ⟨s1, r1, r2⟩ := run_append hrun
  obtain ⟨s2, r3, r4⟩ := run_cons r2
  have hb1 := run_base (fun e he => hsort e (List.mem_append_left _ he)) (fun p hp => hres p (hp.trans (List.prefix_append _ _))) (base_init H w) r1
  have hu1 : s1.Uniform H w := hres es (List.prefix_append _ _) s1 r1
  have hres2 : OneResolution H w (e :: frames) s1 := by
    intro p hp s' hr
    refine hres (es ++ p) ((List.prefix_append_right_inj es).2 hp) s' ?_
    rw [run_then r1]
    exact hr
  have hse : e.sorts := hsort e (List.mem_append_right _ List.mem_cons_self)
  have hsfs : ∀ e ∈ frames, e.sorts := fun e he => hsort e (List.mem_append_right _ (List.mem_cons_of_mem _ he))
  have hu2 : s2.Uniform H w := (hres2.tail r3).head
  have hb2 : s2.Base H w := step_base hse hu1 hu2 hb1 r3
  have hk2 : Kept s2 s := frames_kept hsfs hframes hu2 hb2 r4
  have hm2 : s2.map = some (.hashedWavelet m) := by rw [← hk2.map]; exact hm
  have hv2 : s2.visible = true := by rw [← hk2.visible]; exact hv
  obtain ⟨s0, now, hup⟩ := redraws_step he r3
  have hf2 := updateMap_fresh hup m hm2 hv2
  have hc2 := updateMap_current hup m hm2 hv2
  obtain ⟨_, hb, hf⟩ := frames_fresh hsfs hframes hm2 hv2 hu2 hb2 hf2 r4
  obtain ⟨lod, h1, h2⟩ := shows_of hm (by rw [hk2.selector, hk2.version]; exact hc2) hb hq hf hs ho
  refine ⟨lod, h1, fun camera hcam => h2 camera ?_⟩
  have hm0 : s0.map = some (.hashedWavelet m) := by rw [← (updateMap_same hup).1]; exact hm2
  have hv0 : s0.visible = true := by rw [← (updateMap_same hup).2.1]; exact hv2
  have hU := updateMap_hashed hv0 hm0 hup
  by_cases hne : ∃ k b, m.blocks.getBlock k = some b
  · obtain ⟨k, b, hk⟩ := hne
    obtain ⟨hq2, hf2⟩ := hU.queued k b hk (.inl rfl)
    cases frames with
    | nil =>
      cases r4
      rw [hq] at hq2; cases hq2
    | cons f frames =>
      obtain ⟨s3, r5, r6⟩ := run_cons r4
      obtain ⟨moved, sort, cut, rfl⟩ := hcam f List.mem_cons_self
      obtain ⟨g1, _, g3, _, g5, _⟩ := prerender_spec (hsfs _ List.mem_cons_self) hm2 hv2 hu2 hb2 r5
      exact frames_lod (fun e he => hsfs e (List.mem_cons_of_mem _ he)) (fun e he => hcam e (List.mem_cons_of_mem _ he)) (by rw [g1.map]; exact hm2)
        (by rw [g1.visible]; exact hv2) (by unfold Uniform; rw [g1.map]; exact hu2) g3 (g5 (.inl hf2)) r6
  · intro k b hk
    exact absurd ⟨k, b, hk⟩ hne

/-- C73, the queue: while the camera does not move and nothing else happens, a number of frames larger than the number of blocks of the map empties the queue, however
early the time limit ends each of them. -/
theorem C73_finishes {H : Nat} {w : ℚ} {es frames : List Event} {s : VoxelDisplay} {m : HashedWaveletOctree} (hrun : run (es ++ frames) {} = .done s)
    (hframes : ∀ e ∈ frames, e.Still) (hsort : ∀ e ∈ es ++ frames, e.sorts) (hres : OneResolution H w (es ++ frames) {}) (hplaced : lastPlaced es = true)
    (hv : s.visible = true) (hm : s.map = some (.hashedWavelet m)) (hlen : m.blocks.length < frames.length) : s.queue = [] := by
  obtain ⟨s1, r1, r2⟩ := run_append hrun
  have hs1 : ∀ e ∈ es, e.sorts := fun e he => hsort e (List.mem_append_left _ he)
  have hres1 : OneResolution H w es {} := fun p hp => hres p (hp.trans (List.prefix_append _ _))
  have hb1 := run_base hs1 hres1 (base_init H w) r1
  have hu1 : s1.Uniform H w := hres es (List.prefix_append _ _) s1 r1
  have hsfs : ∀ e ∈ frames, e.sorts := fun e he => hsort e (List.mem_append_right _ he)
  have hk : Kept s1 s := frames_kept hsfs (fun e he => by obtain ⟨a, b, c, rfl⟩ := hframes e he; exact ⟨_, _, _, _, rfl⟩) hu1 hb1 r2
  have hm1 : s1.map = some (.hashedWavelet m) := by rw [← hk.map]; exact hm
  have hv1 : s1.visible = true := by rw [← hk.visible]; exact hv
  have hc1 : s1.Current := run_current true hs1 hres1 (base_init H w) (fun _ m hm => by cases hm) r1 hplaced
  cases frames with
  | nil => exact absurd hlen (Nat.not_lt_zero _)
  | cons f frames =>
    obtain ⟨s2, r3, r4⟩ := run_cons r2
    obtain ⟨camera, sort, cut, rfl⟩ := hframes f List.mem_cons_self
    obtain ⟨g1, g2, g3, _⟩ := prerender_spec (hsfs _ List.mem_cons_self) hm1 hv1 hu1 hb1 r3
    have hm2 : s2.map = some (.hashedWavelet m) := by rw [g1.map]; exact hm1
    have ha2 : s2.selector.accelerator = some s2.version := by rw [g1.selector, g1.version]; exact hc1 m hm1 hv1
    have hle := queue_length_le g3 hm2 ha2
    rcases frames_shrink (fun e he => hsfs e (List.mem_cons_of_mem _ he)) (fun e he => hframes e (List.mem_cons_of_mem _ he)) hm2
      (by rw [g1.visible]; exact hv1) ha2 (by unfold Uniform; rw [g1.map]; exact hu1) g3 g2 r4 with h | h
    · exact h
    · rw [List.length_cons] at hlen
      apply List.eq_nil_of_length_eq_zero
      omega

/-! ## Frames that do not fail -/

namespace VoxelDisplay

theorem drawLeaves_done (draw : NdtreeIndex 3 → ℚ → Option Bool) (colour : ColourMode) (H : Int) (w : ℚ) : ∀ (leaves : List (NdtreeIndex 3 × ℚ))
    (levels : List (List DrawnCell)), (∀ e ∈ leaves, (∃ b, draw e.1 e.2 = some b) ∧ 0 ≤ H - e.1.height ∧ H - e.1.height < levels.length) →
    ∃ out, drawLeaves draw colour H w leaves levels = .done out ∧ out.length = levels.length := by
  intro leaves
  induction leaves with
  | nil => intro levels _; exact ⟨levels, rfl, rfl⟩
  | cons e es ih =>
    intro levels h
    obtain ⟨⟨b, h1⟩, h2⟩ := h e List.mem_cons_self
    have h3 : ∀ e ∈ es, (∃ b, draw e.1 e.2 = some b) ∧ 0 ≤ H - e.1.height ∧ H - e.1.height < levels.length := fun e he => h e (List.mem_cons_of_mem _ he)
    simp only [drawLeaves, h1]
    cases b with
    | false => exact ih levels h3
    | true =>
      dsimp only
      rw [if_pos h2]
      obtain ⟨out, g1, g2⟩ := ih (levels.modify (H - e.1.height).toNat (· ++ [⟨nodeIndexToCenterPoint e.1 w, colour.pick (nodeIndexToCenterPoint e.1 w) e.2⟩]))
        (by rw [List.length_modify]; exact h3)
      exact ⟨out, g1, by rw [g2, List.length_modify]⟩

theorem drawBlock_done {s : VoxelDisplay} {m : HashedWaveletOctree} (hm : s.map = some (.hashedWavelet m)) (hacc : s.selector.accelerator = some s.version)
    (hs : m.Sound) {k : Index 3} {b : WaveletBlock} (hk : m.blocks.getBlock k = some b) {h : Int} (h0 : h < m.config.treeHeight) (colour : ColourMode)
    (old : List CellLayer) :
    ∃ out, drawVoxels s.draws colour m.config.treeHeight m.config.minCellWidth ((m.config.treeHeight : Int) + 1 - h) (b.forEachLeaf k h) old = .done out := by
  unfold drawVoxels
  rw [if_neg (by omega)]
  have hleaf : ∀ e ∈ b.forEachLeaf k h, (∃ x, s.draws e.1 e.2 = some x) ∧ 0 ≤ (m.config.treeHeight : Int) - e.1.height ∧
      (m.config.treeHeight : Int) - e.1.height < (List.replicate ((m.config.treeHeight : Int) + 1 - h).toNat ([] : List DrawnCell)).length := by
    intro e he
    rw [List.length_replicate]
    unfold WaveletBlock.forEachLeaf at he
    split at he
    · cases he
    · rw [(hs.fits k b hk).height] at he
      obtain ⟨_, _, c3, c4, c5, _⟩ := blockLeaves_spec hs hk h0 he (region_min e.1)
      obtain ⟨x, d1, _⟩ := draws_iff hm hacc e.1
      refine ⟨⟨x, by rw [c5]; exact d1⟩, by omega, by omega⟩
  obtain ⟨levels, g1, g2⟩ := drawLeaves_done s.draws colour m.config.treeHeight m.config.minCellWidth _ _ hleaf
  rw [g1]
  simp only [Outcome.bind]
  unfold drawMultiResolutionVoxels
  rw [List.length_replicate] at g2
  rw [if_neg (by rintro rfl; simp only [List.length_nil] at g2; omega)]
  exact ⟨_, rfl⟩

theorem drawQueue_done {m : HashedWaveletOctree} (hs : m.Sound) : ∀ (ks : List (Index 3)) (cut : Nat) (s : VoxelDisplay), s.map = some (.hashedWavelet m) →
    s.selector.accelerator = some s.version → (∀ k h, s.queue.getBlock k = some h → h < m.config.treeHeight) → ∃ s', drawQueue m cut ks s = .done s' := by
  have hpos := hs.pos
  intro ks
  induction ks with
  | nil => intro cut s _ _ _; exact ⟨s, rfl⟩
  | cons k ks ih =>
    intro cut s hm ha hq
    simp only [drawQueue]
    cases hk : m.blocks.getBlock k with
    | none => exact ih cut s hm ha hq
    | some b =>
      dsimp only
      have hh : (s.queue.getBlock k).getD 0 < m.config.treeHeight := by
        cases e : s.queue.getBlock k with
        | none => simp only [Option.getD_none]; omega
        | some x => exact hq k x e
      obtain ⟨layers, hl⟩ := drawBlock_done hm ha hs hk hh s.colour ((s.layers.getBlock k).getD [])
      rw [hl]
      simp only [Outcome.bind]
      split
      · exact ⟨_, rfl⟩
      · refine ih _ _ hm ha fun j x hj => ?_
        dsimp only at hj
        rw [SpatialHash.getBlock_erase] at hj
        split at hj
        · cases hj
        · exact hq j x hj

theorem updateBlockLods_done {camera : Camera} {H : Nat} {w : ℚ} : ∀ (ks : List (Index 3)) (s : VoxelDisplay), s.termHeight < H →
    ∃ s', updateBlockLods camera H w ks s = .done s' := by
  intro ks
  induction ks with
  | nil => intro s _; exact ⟨s, rfl⟩
  | cons k ks ih =>
    intro s ht
    simp only [updateBlockLods]
    have : ∃ r, recommendedHeight camera H w k s.termHeight ((H : Int) - 1) = some r := by
      unfold recommendedHeight
      split
      · exact ⟨_, rfl⟩
      · rw [if_neg (by omega)]; exact ⟨_, rfl⟩
    obtain ⟨r, hr⟩ := this
    rw [hr]
    dsimp only
    apply ih
    split
    · exact ht
    · split
      · exact ht
      · split <;> exact ht

theorem recommendedHeight_lt {camera : Camera} {H : Nat} {w : ℚ} {k : Index 3} {lo r : Int} (h0 : 0 < H) (hlo : lo < H)
    (h : recommendedHeight camera H w k lo ((H : Int) - 1) = some r) : r < H := by
  unfold recommendedHeight at h
  split at h
  · cases h; exact hlo
  · split at h
    · cases h
    · rw [Option.some.injEq] at h
      have := Nat.findGreatest_le (P := fun level => lodReached w ((nodeIndexToAabb ⟨H, k⟩ w).minSquaredDistanceTo camera.position) level = true)
        (((H : Int) - 1).toNat)
      omega

theorem strictWeakOrder_of_equal {l : List QueuedBlock} {x : Int} (h : ∀ a ∈ l, a.heightDifference = x) : strictWeakOrder l = true := by
  have hd : ∀ a ∈ l, ∀ b ∈ l, drawsBefore a b = decide (a.sqDistance < b.sqDistance) := by
    intro a ha b hb
    unfold drawsBefore
    rw [h a ha, h b hb, sub_self, abs_zero, if_pos (by norm_num)]
  unfold strictWeakOrder
  simp only [List.all_eq_true]
  intro a ha b hb
  rw [Bool.and_eq_true]
  constructor
  · rw [hd a ha b hb, hd b hb a ha]
    simp only [Bool.not_eq_true', Bool.and_eq_false_iff, decide_eq_false_iff_not, not_lt]
    exact le_total b.sqDistance a.sqDistance
  · rw [List.all_eq_true]
    intro c hc
    rw [hd a ha b hb, hd b hb a ha, hd b hb c hc, hd c hc b hb, hd a ha c hc, hd c hc a ha]
    simp only [Bool.and_eq_true, Bool.or_eq_true, Bool.not_eq_true', Bool.and_eq_false_iff, Bool.or_eq_false_iff, decide_eq_true_eq, decide_eq_false_iff_not,
      not_lt]
    constructor
    · by_cases h1 : a.sqDistance < b.sqDistance
      · by_cases h2 : b.sqDistance < c.sqDistance
        · exact .inr (h1.trans h2)
        · exact .inl (.inr (not_lt.1 h2))
      · exact .inl (.inl (not_lt.1 h1))
    · rcases lt_trichotomy a.sqDistance b.sqDistance with g | g | g
      · tauto
      · rcases lt_trichotomy b.sqDistance c.sqDistance with g' | g' | g'
        · tauto
        · right; constructor <;> linarith
        · tauto
      · tauto

/-- No queued block has been drawn before, and the heights of the queued blocks are valid or about to be. -/
structure FirstDrawing (m : HashedWaveletOctree) (s : VoxelDisplay) : Prop where
  map : s.map = some (.hashedWavelet m)
  visible : s.visible = true
  acc : s.selector.accelerator = some s.version
  term : s.termHeight < m.config.treeHeight
  undrawn : ∀ k, s.queue.hasBlock k = true → s.layers.getBlock k = none
  heights : (s.forceLod = true ∧ s.layers = []) ∨ (s.forceLod = false ∧ ∀ k h, s.queue.getBlock k = some h → h < m.config.treeHeight)

theorem FirstDrawing.frame {H : Nat} {w : ℚ} {m : HashedWaveletOctree} (hs : m.Sound) {s : VoxelDisplay} (hd : FirstDrawing m s) (hu : s.Uniform H w)
    (hb : s.Base H w) (camera : Camera) (moved : Bool) (hmoved : moved = true → s.layers = []) {sort : List QueuedBlock → List QueuedBlock}
    (hsort : ∀ l, (sort l).Perm l) (cut : Nat) : ∃ s', s.prerender camera moved sort cut = .done s' ∧ FirstDrawing m s' := by
  have key : ∀ s1 : VoxelDisplay, Kept s s1 → s1.forceLod = false → s1.Base H w → (∀ k, s1.queue.hasBlock k = true → s1.layers.getBlock k = none) →
      (∀ k h, s1.queue.getBlock k = some h → h < m.config.treeHeight) →
      ∃ s', s1.processQueue sort cut camera.position = .done s' ∧ FirstDrawing m s' := by
    intro s1 hk hf hb1 hun hh
    have hm1 : s1.map = some (.hashedWavelet m) := by rw [hk.map]; exact hd.map
    have hv1 : s1.visible = true := by rw [hk.visible]; exact hd.visible
    have ha1 : s1.selector.accelerator = some s1.version := by rw [hk.selector, hk.version]; exact hd.acc
    have hdone : ∃ s', s1.processQueue sort cut camera.position = .done s' := by
      unfold processQueue
      rw [hv1, hm1]
      simp only [Bool.not_true, Bool.false_eq_true, if_false]
      rw [if_pos]
      · exact drawQueue_done hs _ _ _ hm1 ha1 hh
      · apply strictWeakOrder_of_equal (x := m.config.treeHeight)
        intro a ha
        obtain ⟨e, he, rfl⟩ := List.mem_map.1 ha
        have hq : s1.queue.hasBlock e.1 = true := SpatialHash.hasBlock_iff.2 (List.mem_map.2 ⟨e, he, rfl⟩)
        unfold queuedBlock VoxelDisplay.currentHeight
        dsimp only
        rw [hun e.1 hq]
        rfl
    obtain ⟨s', hp⟩ := hdone
    refine ⟨s', hp, ?_⟩
    obtain ⟨g1, g2, g3, _, _, g6⟩ := processQueue_spec hsort hm1 hv1 (by unfold Uniform; rw [hk.map]; exact hu) hb1 hp
    have hm' : s'.map = some (.hashedWavelet m) := by rw [g1.map]; exact hm1
    have ha' : s'.selector.accelerator = some s'.version := by rw [g1.selector, g1.version]; exact ha1
    have hcase : ∀ k h, s'.queue.getBlock k = some h → s1.queue.getBlock k = some h ∧ s'.layers.getBlock k = s1.layers.getBlock k := by
      intro k h hq
      have := (g3.synced m hm' ha').2 k (by unfold SpatialHash.hasBlock; rw [hq]; rfl)
      obtain ⟨b, hkb⟩ := Option.isSome_iff_exists.1 this
      rcases g6 k b hkb with ⟨c1, c2⟩ | ⟨c1, _⟩
      · exact ⟨by rw [← c1]; exact hq, c2⟩
      · rw [c1] at hq; cases hq
    refine ⟨hm', by rw [g1.visible]; exact hv1, ha', by rw [g1.term, hk.term]; exact hd.term, fun k hq => ?_, .inr ⟨g2.trans hf, fun k h hq => ?_⟩⟩
    · obtain ⟨h, hq⟩ := Option.isSome_iff_exists.1 hq
      obtain ⟨c1, c2⟩ := hcase k h hq
      rw [c2]
      exact hun k (by unfold SpatialHash.hasBlock; rw [c1]; rfl)
    · exact hh k h (hcase k h hq).1
  unfold prerender
  by_cases hc : (s.forceLod || moved) = true
  · rw [if_pos hc]
    have hlay : s.layers = [] := by
      rcases hd.heights with h | h
      · exact h.2
      · rw [h.1, Bool.false_or] at hc
        exact hmoved hc
    have hdone : ∃ s1, s.updateLod camera = .done s1 := by
      unfold updateLod
      rw [hd.visible, hd.map]
      exact updateBlockLods_done _ _ hd.term
    obtain ⟨s1, h1⟩ := hdone
    rw [h1]
    simp only [Outcome.bind]
    obtain ⟨a1, a2, a3, a4, a5, a6⟩ := updateLod_spec hd.map hd.visible hb h1
    have hk : Kept s { s1 with forceLod := false } := ⟨a1.map, a1.version, a1.selector, a1.visible, a1.term, a1.colour, a1.lastUpdate⟩
    refine key _ hk rfl ⟨a4.widths, a4.layerKeys, a4.queueKeys, a4.term, a4.heights, a4.acc, a4.synced⟩ (fun k _ => ?_) (fun k h hq => ?_)
    · show s1.layers.getBlock k = none
      rw [a3, hlay]; rfl
    · have hq : s1.queue.getBlock k = some h := hq
      have hm1 : s1.map = some (.hashedWavelet m) := by rw [a1.map]; exact hd.map
      have ha1 : s1.selector.accelerator = some s1.version := by rw [a1.selector, a1.version]; exact hd.acc
      have := (a4.synced m hm1 ha1).2 k (by unfold SpatialHash.hasBlock; rw [hq]; rfl)
      obtain ⟨b, hkb⟩ := Option.isSome_iff_exists.1 this
      obtain ⟨r, c1, c2⟩ := a6 k b hkb
      rcases c2 with c2 | ⟨c2, _⟩
      · rw [hq] at c2
        cases c2
        exact recommendedHeight_lt hs.pos (by rw [a1.term]; exact hd.term) c1
      · rw [hq] at c2; cases c2
  · rw [if_neg hc]
    simp only [Bool.or_eq_true, not_or, Bool.not_eq_true] at hc
    simp only [Outcome.bind]
    refine key s (.refl s) hc.1 hb hd.undrawn ?_
    rcases hd.heights with h | h
    · rw [h.1] at hc; cases hc.1
    · exact h.2

theorem FirstDrawing.stills {H : Nat} {w : ℚ} {m : HashedWaveletOctree} (hs : m.Sound) : ∀ {es : List Event} {s : VoxelDisplay}, FirstDrawing m s →
    s.Uniform H w → s.Base H w → (∀ e ∈ es, e.sorts) → (∀ e ∈ es, e.Still) → ∃ s', run es s = .done s' := by
  intro es
  induction es with
  | nil => intro s _ _ _ _ _; exact ⟨s, rfl⟩
  | cons e es ih =>
    intro s hd hu hb hsort hst
    have hse := hsort e List.mem_cons_self
    obtain ⟨camera, sort, cut, rfl⟩ := hst e List.mem_cons_self
    obtain ⟨s1, h1, h2⟩ := hd.frame hs hu hb camera false (fun h => by cases h) hse cut
    have hk := frame_kept hse hu hb h1
    have hu1 : s1.Uniform H w := by unfold Uniform; rw [hk.map]; exact hu
    obtain ⟨s', h3⟩ := ih h2 hu1 (step_base hse hu hu1 hb h1) (fun e he => hsort e (List.mem_cons_of_mem _ he)) (fun e he => hst e (List.mem_cons_of_mem _ he))
    refine ⟨s', ?_⟩
    have h1 : s.step (.frame camera false sort cut) = .done s1 := h1
    simp only [run, h1, Outcome.bind]
    exact h3

end VoxelDisplay

/-- C73, everything together: whatever happened before (with maps of one cell width and tree height), if the user hides the voxels and shows them again and the camera
then stays where it is, no frame fails, and after more frames than the map has blocks the display shows the map, with cubes whose sizes suit the camera. Missing from
the property: a termination height equal to the tree height (`C73_termination_height_fails`), and redrawing what is already shown
(`C73_sort_fails`). -/
theorem C73_shown_again_partial {H : Nat} {w : ℚ} {es frames : List Event} {s1 : VoxelDisplay} {m : HashedWaveletOctree} {t now : ℚ} {camera : Camera} {moved : Bool}
    {sort : List QueuedBlock → List QueuedBlock} {cut : Nat} (hrun : run es {} = .done s1) (hsort : ∀ e ∈ es, e.sorts) (hres : OneResolution H w es {})
    (hm : s1.map = some (.hashedWavelet m)) (hs : m.Sound) (hterm : s1.termHeight < m.config.treeHeight) (ho : s1.selector.Observed)
    (hsort0 : ∀ l, (sort l).Perm l) (hframes : ∀ e ∈ frames, e.sorts ∧ e.Still ∧ e.SeenBy camera) (hlen : m.blocks.length ≤ frames.length) :
    ∃ s lod, run (es ++ [.setVisible false t, .setVisible true now, .frame camera moved sort cut] ++ frames) {} = .done s ∧ s.map = some (.hashedWavelet m) ∧
      s.Shows m lod ∧ ∀ k, (m.blocks.getBlock k).isSome = true → FitsView camera m s1.termHeight k (lod k) := by
  have hb1 := run_base hsort hres (base_init H w) hrun
  have hu1 : s1.Uniform H w := hres es (List.prefix_refl _) s1 hrun
  -- hidden
  let s2 : VoxelDisplay := { s1 with visible := false }.clear
  have e2 : s1.step (.setVisible false t) = .done s2 := rfl
  have hu2 : s2.Uniform H w := hu1
  have hb2 : s2.Base H w := step_base (e := .setVisible false t) trivial hu1 hu2 hb1 e2
  -- shown again
  have hdone : ∃ s3, s2.step (.setVisible true now) = .done s3 := by
    show ∃ s3, VoxelDisplay.updateMap { s2 with visible := true } true now = .done s3
    unfold VoxelDisplay.updateMap
    have : ({ s2 with visible := true } : VoxelDisplay).map = some (.hashedWavelet m) := hm
    rw [this]
    exact ⟨_, rfl⟩
  obtain ⟨s3, e3⟩ := hdone
  have e3' : VoxelDisplay.updateMap { s2 with visible := true } true now = .done s3 := e3
  have hU := updateMap_hashed (m := m) (s := { s2 with visible := true }) rfl hm e3'
  have hu3 : s3.Uniform H w := by unfold Uniform; rw [hU.map]; exact hu1
  have hb3 : s3.Base H w := step_base (e := .setVisible true now) trivial hu2 hu3 hb2 e3
  have hm3 : s3.map = some (.hashedWavelet m) := hU.map.trans hm
  have hv3 : s3.visible = true := hU.visible
  have ha3 : s3.selector.accelerator = some s3.version := by rw [hU.selector, hU.version]
  have ht3 : s3.termHeight = s1.termHeight := by
    rw [hU.termHeight]
    show max 0 (min (m.config.treeHeight : Int) s1.termHeight) = s1.termHeight
    have := hb1.term
    omega
  have hl3 : s3.layers = [] := by
    cases hl : s3.layers with
    | nil => rfl
    | cons x l =>
      have hx : s3.layers.getBlock x.1 = some x.2 := SpatialHash.getBlock_of_mem hb3.layerKeys (by rw [hl]; exact List.mem_cons_self)
      rw [hU.layers] at hx
      split at hx <;> cases hx
  have ho3 : s3.selector.Observed := by rw [hU.selector]; exact ho
  have hf3 : s3.Fresh m := fun k b hk => .inl (hU.queued k b hk (.inl rfl)).1
  have hd3 : s3.forceLod = true ∨ s3.queue = [] := by
    cases hq : s3.queue with
    | nil => exact .inr rfl
    | cons x l =>
      left
      have hq0 : s3.queue.getBlock x.1 = some x.2 := SpatialHash.getBlock_of_mem hb3.queueKeys (by rw [hq]; exact List.mem_cons_self)
      obtain ⟨b, hkb⟩ := Option.isSome_iff_exists.1 (hU.heights _ _ hq0).2
      exact (hU.queued _ b hkb (.inl rfl)).2
  have hfd : FirstDrawing m s3 := by
    refine ⟨hm3, hv3, ha3, by rw [ht3]; exact hterm, fun k _ => by rw [hl3]; rfl, ?_⟩
    cases hf : s3.forceLod with
    | true => exact .inl ⟨rfl, hl3⟩
    | false =>
      right
      refine ⟨rfl, fun k h hq => ?_⟩
      rcases hd3 with h' | h'
      · rw [hf] at h'; cases h'
      · rw [h'] at hq; cases hq
  -- the first frame
  obtain ⟨s4, e4, hfd4⟩ := hfd.frame hs hu3 hb3 camera moved (fun _ => hl3) hsort0 cut
  obtain ⟨g1, g2, g3, g4, g5, _⟩ := prerender_spec hsort0 hm3 hv3 hu3 hb3 e4
  have hu4 : s4.Uniform H w := by unfold Uniform; rw [g1.map]; exact hu3
  have hlod4 : s4.LodOk camera m := by
    rcases hd3 with h | h
    · exact g5 (.inl h)
    · refine g5 (.inr (.inr fun k b hk => ?_))
      have := (hU.queued k b hk (.inl rfl)).1
      rw [h] at this; cases this
  -- the others
  obtain ⟨s, e5⟩ := hfd4.stills hs hu4 g3 (fun e he => (hframes e he).1) (fun e he => (hframes e he).2.1)
  have hisf : ∀ e ∈ frames, e.IsFrame := fun e he => by obtain ⟨a, b, c, h⟩ := (hframes e he).2.2; exact ⟨_, _, _, _, h⟩
  obtain ⟨i1, i2, i3⟩ := frames_fresh (fun e he => (hframes e he).1) hisf hfd4.map hfd4.visible hu4 g3 (g4 hf3) e5
  have i4 := frames_lod (fun e he => (hframes e he).1) (fun e he => (hframes e he).2.2) hfd4.map hfd4.visible hu4 g3 hlod4 e5
  have hm5 : s.map = some (.hashedWavelet m) := by rw [i1.map]; exact hfd4.map
  have ha5 : s.selector.accelerator = some s.version := by rw [i1.selector, i1.version]; exact hfd4.acc
  have hq5 : s.queue = [] := by
    rcases frames_shrink (fun e he => (hframes e he).1) (fun e he => (hframes e he).2.1) hfd4.map hfd4.visible hfd4.acc hu4 g3 g2 e5 with h | h
    · exact h
    · have := queue_length_le g3 hfd4.map hfd4.acc
      apply List.eq_nil_of_length_eq_zero
      omega
  obtain ⟨lod, j1, j2⟩ := shows_of hm5 ha5 i2 hq5 i3 hs (by rw [i1.selector, g1.selector]; exact ho3)
  refine ⟨s, lod, ?_, hm5, j1, ?_⟩
  · rw [List.append_assoc, run_then hrun]
    have e4 : s3.step (.frame camera moved sort cut) = .done s4 := e4
    simp only [List.cons_append, List.nil_append, run, e2, e3, e4, Outcome.bind]
    exact e5
  · have := j2 camera i4
    rw [i1.term, g1.term, ht3] at this
    exact this

end Wavemap
