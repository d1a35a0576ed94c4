import Verif.Props.VoxelDisplayExamples
import Verif.Props.SliceDisplayExamples
/-!
# C73 The voxel display of maps from a server

The theorems about histories assume that the maps are well-formed and of one resolution. Here this is proved for all histories in which the maps come from servers.
-/
namespace Wavemap
open NdtreeIndex NTree Haar

namespace VoxelDisplay

/-- An event of a display that is connected to servers whose maps all have cells of width `w` and height `H`: a message of some of the blocks of a well-formed map (or
of all of them), in a frame that is known or not, a frame, and whatever the user does except for loading a file. -/
inductive Served (w : ℚ) (H : Nat) : Event → Prop where
  | message (m : HashedWaveletOctree) (hm : m.Sound) (hw : m.config.minCellWidth = w) (hH : m.config.treeHeight = H) (ks : List (Index 3)) (hks : ks.Nodup)
      (msg : HashedWaveletMsg) (hmsg : m.toMsg ks = some msg) (now : ℚ) (transform : Bool) : Served w H (.message ⟨[], [], [msg]⟩ now transform)
  | other (e : Event) (hm : ∀ msg now transform, e ≠ .message msg now transform) (hl : ∀ file now, e ≠ .load file now) : Served w H e

/-- The map of the display, if there is one, is well-formed and has cells of width `w` and height `H`. -/
def MapSound (w : ℚ) (H : Nat) (s : VoxelDisplay) : Prop :=
  ∀ a, s.map = some a → ∃ m, a = .hashedWavelet m ∧ m.Sound ∧ m.config.minCellWidth = w ∧ m.config.treeHeight = H

theorem MapSound.uniform {w : ℚ} {H : Nat} {s : VoxelDisplay} (h : s.MapSound w H) : s.Uniform H w := by
  intro a ha
  obtain ⟨m, rfl, _, h1, h2⟩ := h a ha
  exact ⟨h2, h1⟩

theorem MapSound.step {w : ℚ} {H : Nat} {s s' : VoxelDisplay} {e : Event} (h : s.MapSound w H) (hb : s.Base H w) (hsort : e.sorts) (he : Served w H e)
    (hs : s.step e = .done s') : s'.MapSound w H := by
  have same : ∀ {t : VoxelDisplay}, t.map = s.map → t.MapSound w H := fun ht a ha => h a (ht ▸ ha)
  cases he with
  | message m hm hw hH ks hks msg hmsg now transform =>
    obtain ⟨msg', R, h1, h2, h3, h4⟩ := hm.received now ks hks (AnyMap.asHashedWavelet s.map) (by
      intro o ho
      unfold AnyMap.asHashedWavelet at ho
      split at ho
      · next m' e =>
        cases ho
        obtain ⟨m2, h5, h6, _⟩ := h _ e
        cases h5
        exact h6
      · cases ho)
    rw [hmsg] at h1
    cases h1
    have hr : rosMsgToMap now ⟨[], [], [msg]⟩ s.map = .done (true, some (.hashedWavelet R)) := by
      unfold rosMsgToMap
      simp only [h2, Outcome.bind]
      rfl
    have hR : ∀ t : VoxelDisplay, t.map = some (.hashedWavelet R) → t.MapSound w H := by
      intro t ht a ha
      rw [ht] at ha
      cases ha
      exact ⟨R, rfl, h3, by rw [h4]; exact hw, by rw [h4]; exact hH⟩
    simp only [VoxelDisplay.step, hr, Outcome.bind] at hs
    split at hs
    · exact hR _ (updateMap_same hs).1
    · cases hs; exact hR _ rfl
  | other e hm hl =>
    cases e with
    | message msg now transform => exact absurd rfl (hm _ _ _)
    | load file now => exact absurd rfl (hl _ _)
    | sourceMode now =>
      simp only [VoxelDisplay.step] at hs
      intro a ha
      rw [(updateMap_same hs).1] at ha
      have ha : s.map.map AnyMap.clear = some a := ha
      cases e : s.map with
      | none => rw [e] at ha; cases ha
      | some b =>
        rw [e] at ha
        cases ha
        obtain ⟨m, rfl, h1, h2, h3⟩ := h b e
        exact ⟨m.clear, rfl, ⟨h1.width, h1.pos, h1.le, h1.bounds, List.nodup_nil, fun k b hb => by cases hb⟩, h2, h3⟩
    | reset => cases hs; exact same rfl
    | setVisible v now =>
      simp only [VoxelDisplay.step] at hs
      split at hs
      · exact same (updateMap_same hs).1
      · cases hs; exact same rfl
    | setMode mode now =>
      simp only [VoxelDisplay.step] at hs
      split at hs
      · exact same (updateMap_same hs).1
      · cases hs; exact same rfl
    | setThresholds a b c d now =>
      simp only [VoxelDisplay.step] at hs
      exact same (updateMap_same hs).1
    | setColour colour now =>
      simp only [VoxelDisplay.step] at hs
      split at hs
      · exact same (updateMap_same hs).1
      · cases hs; exact same rfl
    | setTermHeight height => cases hs; exact same rfl
    | frame camera moved sort cut => exact same (frame_kept hsort h.uniform hb hs).map

theorem MapSound.run {w : ℚ} {H : Nat} : ∀ (es : List Event) (s : VoxelDisplay), s.MapSound w H → s.Base H w → (∀ e ∈ es, e.sorts) → (∀ e ∈ es, Served w H e) →
    OneResolution H w es s ∧ ∀ s', VoxelDisplay.run es s = .done s' → s'.MapSound w H
  | [], s, h, _, _, _ => by
    refine ⟨fun p hp s' hr => ?_, fun s' hr => ?_⟩
    · rw [List.prefix_nil] at hp
      subst hp
      cases hr; exact h.uniform
    · cases hr; exact h
  | e :: es, s, h, hb, hsort, he => by
    have hstep : ∀ s1, s.step e = .done s1 → s1.MapSound w H ∧ s1.Base H w := fun s1 h1 =>
      have hm := h.step hb (hsort e List.mem_cons_self) (he e List.mem_cons_self) h1
      ⟨hm, step_base (hsort e List.mem_cons_self) h.uniform hm.uniform hb h1⟩
    have ih : ∀ s1, s.step e = .done s1 → _ := fun s1 h1 => MapSound.run es s1 (hstep s1 h1).1 (hstep s1 h1).2
      (fun e h => hsort e (List.mem_cons_of_mem _ h)) fun e h => he e (List.mem_cons_of_mem _ h)
    refine ⟨fun p hp s' hr => ?_, fun s' hr => ?_⟩
    · cases p with
      | nil => cases hr; exact h.uniform
      | cons e' p =>
        obtain ⟨rfl, hp'⟩ := List.cons_prefix_cons.1 hp
        obtain ⟨s1, h1, h2⟩ := run_cons hr
        exact (ih s1 h1).1 p hp' s' h2
    · obtain ⟨s1, h1, h2⟩ := run_cons hr
      exact (ih s1 h1).2 s' h2

end VoxelDisplay
open VoxelDisplay

/-- C73, maps from servers: after any history of messages of well-formed maps with one cell width and tree height, the display has such a map too. This discharges the
hypotheses `OneResolution` and `Sound` of the theorems about histories. -/
theorem C73_served (w : ℚ) (H : Nat) (es : List VoxelDisplay.Event) (hsort : ∀ e ∈ es, e.sorts) (he : ∀ e ∈ es, VoxelDisplay.Served w H e) :
    OneResolution H w es {} ∧ ∀ s, VoxelDisplay.run es {} = .done s → ∀ a, s.map = some a → ∃ m, a = .hashedWavelet m ∧ m.Sound ∧ m.config.minCellWidth = w ∧
      m.config.treeHeight = H :=
  MapSound.run es {} (fun a ha => by cases ha) (base_init H w) hsort he

/-- C73, display of a band of values, for maps from servers. -/
theorem C73_served_band_partial {w : ℚ} {H : Nat} {es : List VoxelDisplay.Event} {s : VoxelDisplay} {m : AnyMap} (hrun : VoxelDisplay.run es {} = .done s)
    (hsort : ∀ e ∈ es, e.sorts) (he : ∀ e ∈ es, VoxelDisplay.Served w H e) (hreset : ∀ e ∈ es, e ≠ .reset) (htime : Increasing 0 es)
    (hplaced : lastPlaced es = true) (hv : s.visible = true) (hm : s.map = some m) (hmode : s.selector.mode = .band) (ho : s.selector.Observed) (hq : s.queue = []) :
    ∃ m' lod, m = .hashedWavelet m' ∧ s.Shows m' lod := by
  obtain ⟨h1, h2⟩ := C73_served w H es hsort he
  obtain ⟨m', rfl, h3, _⟩ := h2 s hrun m hm
  obtain ⟨lod, h4⟩ := C73_band_partial hrun hsort hreset htime h1 hplaced hv hm h3 hmode ho hq
  exact ⟨m', lod, rfl, h4⟩

/-- C73, everything together, for maps from servers. -/
theorem C73_served_again_partial {w : ℚ} {H : Nat} {es frames : List VoxelDisplay.Event} {s1 : VoxelDisplay} {m : HashedWaveletOctree} {t now : ℚ} {camera : Camera}
    {moved : Bool} {sort : List QueuedBlock → List QueuedBlock} {cut : Nat} (hrun : VoxelDisplay.run es {} = .done s1) (hsort : ∀ e ∈ es, e.sorts)
    (he : ∀ e ∈ es, VoxelDisplay.Served w H e) (hm : s1.map = some (.hashedWavelet m)) (hterm : s1.termHeight < m.config.treeHeight) (ho : s1.selector.Observed)
    (hsort0 : ∀ l, (sort l).Perm l) (hframes : ∀ e ∈ frames, e.sorts ∧ e.Still ∧ e.SeenBy camera) (hlen : m.blocks.length ≤ frames.length) :
    ∃ s lod, VoxelDisplay.run (es ++ [.setVisible false t, .setVisible true now, .frame camera moved sort cut] ++ frames) {} = .done s ∧
      s.map = some (.hashedWavelet m) ∧ s.Shows m lod ∧ ∀ k, (m.blocks.getBlock k).isSome = true → FitsView camera m s1.termHeight k (lod k) := by
  obtain ⟨h1, h2⟩ := C73_served w H es hsort he
  obtain ⟨m', h3, h4, _⟩ := h2 s1 hrun _ hm
  cases h3
  exact C73_shown_again_partial hrun hsort h1 hm h4 hterm ho hsort0 hframes hlen

example : -- a history as in `C73_served`, after which cubes are shown
    ∃ es s m, (∀ e ∈ es, VoxelDisplay.Served 1 2 e ∧ e.sorts ∧ e ≠ .reset) ∧ Increasing 0 es ∧ lastPlaced es = true ∧ VoxelDisplay.run es {} = .done s ∧
      s.map = some (.hashedWavelet m) ∧ s.visible = true ∧ s.selector.mode = .band ∧ s.selector.Observed ∧ s.queue = [] ∧ s.shown.length = 8 := by
  have h : (match wallMap.toMsg [fun _ => 0, ![1, 0, 0]] with
      | some msg => (VoxelDisplay.run [.message ⟨[], [], [msg]⟩ 1 true, .setMode .band 2, originFrame true true, originFrame true false] {}).holds fun s =>
        s.onMap (fun _ => true) && s.visible && decide (s.selector.mode = .band) && decide (1 / 1000 ≤ s.selector.bandMin) && decide (s.queue = []) &&
          decide (s.shown.length = 8)
      | none => false) = true := by decide +kernel
  split at h
  · next msg hmsg =>
    obtain ⟨s, h1, h2⟩ := Outcome.holds_iff h
    simp only [Bool.and_eq_true, decide_eq_true_eq] at h2
    obtain ⟨⟨⟨⟨⟨h2, h3⟩, h4⟩, h5⟩, h6⟩, h7⟩ := h2
    obtain ⟨m, g1, _⟩ := VoxelDisplay.onMap_spec h2
    refine ⟨_, s, m, ?_, ?_, rfl, h1, g1, h3, h4, .inr (by rw [h4]; exact h5), h6, h7⟩
    · simp only [List.forall_mem_cons, List.not_mem_nil, false_imp_iff, implies_true, and_true]
      refine ⟨⟨.message wallMap wallMap_sound rfl rfl _ (by decide +kernel) msg hmsg 1 true, trivial, fun h => by cases h⟩,
        ⟨.other _ (fun _ _ _ h => by cases h) (fun _ _ h => by cases h), trivial, fun h => by cases h⟩,
        ⟨.other _ (fun _ _ _ h => by cases h) (fun _ _ h => by cases h), frame_sorts _ _, fun h => by cases h⟩,
        ⟨.other _ (fun _ _ _ h => by cases h) (fun _ _ h => by cases h), frame_sorts _ _, fun h => by cases h⟩⟩
    · simp only [Increasing, Event.time, originFrame]
      norm_num
  · cases h

end Wavemap
