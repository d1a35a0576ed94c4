import Verif.Model.VoxelDisplay
import Verif.Props.ObstacleCloud
/-! # Helper lemmas about the voxel display -/
namespace Wavemap
open NdtreeIndex Streamable

/-! ## Hash maps -/

namespace SpatialHash
variable {d : Nat} {β : Type}

theorem getBlock_put (m : SpatialHash d β) (k j : Index d) (b : β) : (m.put k b).getBlock j = if j = k then some b else m.getBlock j := by
  unfold put
  rw [getBlock_modify, getBlock_getOrAllocate, getBlock_getOrAllocate]
  by_cases h : j = k
  · simp [h]
  · simp [h]

theorem keys_put (m : SpatialHash d β) (k : Index d) (b : β) (hn : m.keys.Nodup) : (m.put k b).keys.Nodup := by
  unfold put
  rw [keys_modify]
  exact keys_getOrAllocate _ _ _ hn

theorem hasBlock_put (m : SpatialHash d β) (k j : Index d) (b : β) : (m.put k b).hasBlock j = (decide (j = k) || m.hasBlock j) := by
  unfold hasBlock
  rw [getBlock_put]
  by_cases h : j = k <;> simp [h]

theorem getBlock_filter (m : SpatialHash d β) (p : Index d → Bool) (j : Index d) :
    SpatialHash.getBlock (m.filter fun e => p e.1) j = if p j then m.getBlock j else none := by
  induction m with
  | nil => simp [getBlock]
  | cons e m ih =>
    obtain ⟨k, b⟩ := e
    rw [List.filter_cons]
    by_cases hk : p k = true
    · rw [if_pos hk]
      simp only [getBlock]
      by_cases hj : k = j
      · subst hj; simp [hk]
      · rw [if_neg hj, if_neg hj, ih]
    · rw [if_neg hk, ih]
      simp only [getBlock]
      by_cases hj : k = j
      · subst hj; simp [hk]
      · rw [if_neg hj]

theorem keys_filter (m : SpatialHash d β) (p : Index d × β → Bool) (hn : m.keys.Nodup) : (SpatialHash.keys (m.filter p)).Nodup :=
  (List.filter_sublist.map _).nodup hn

theorem hasBlock_iff {m : SpatialHash d β} {k : Index d} : m.hasBlock k = true ↔ k ∈ m.keys := by
  unfold hasBlock
  rw [Option.isSome_iff_ne_none, ne_eq, getBlock_eq_none, not_not]

theorem length_put (m : SpatialHash d β) (k : Index d) (b : β) (h : m.hasBlock k = true) : (m.put k b).length = m.length := by
  unfold put modifyBlock
  rw [List.length_map]
  unfold hasBlock at h
  unfold getOrAllocateBlock
  cases e : m.getBlock k with
  | none => rw [e] at h; cases h
  | some x => rfl

theorem keys_put_of_has (m : SpatialHash d β) (k : Index d) (b : β) (h : m.hasBlock k = true) : (m.put k b).keys = m.keys := by
  unfold put
  rw [keys_modify]
  unfold hasBlock at h
  unfold getOrAllocateBlock
  cases e : m.getBlock k with
  | none => rw [e] at h; cases h
  | some x => rfl

theorem length_erase (m : SpatialHash d β) (k : Index d) (h : m.hasBlock k = true) : (m.eraseBlock k).length < m.length := by
  unfold eraseBlock
  rw [hasBlock_iff] at h
  obtain ⟨e, he, rfl⟩ := List.mem_map.1 h
  exact List.length_filter_lt_length_iff_exists.2 ⟨e, he, by simp⟩

end SpatialHash

/-! ## Drawing one block -/

/-- The cells of one layer. -/
def layerCells (draw : NdtreeIndex 3 → ℚ → Option Bool) (colour : ColourMode) (H : Int) (w : ℚ) (leaves : List (NdtreeIndex 3 × ℚ)) (d : Nat) :
    List DrawnCell :=
  (leaves.filter fun e => decide (draw e.1 e.2 = some true) && decide (H - e.1.height = d)).map
    fun e => ⟨nodeIndexToCenterPoint e.1 w, colour.pick (nodeIndexToCenterPoint e.1 w) e.2⟩

theorem drawLeaves_spec (draw : NdtreeIndex 3 → ℚ → Option Bool) (colour : ColourMode) (H : Int) (w : ℚ) (leaves : List (NdtreeIndex 3 × ℚ)) :
    ∀ (levels out : List (List DrawnCell)), drawLeaves draw colour H w leaves levels = .done out →
      out.length = levels.length ∧ (∀ d, out[d]? = (levels[d]?).map (· ++ layerCells draw colour H w leaves d)) ∧
      (∀ e ∈ leaves, draw e.1 e.2 = some true → 0 ≤ H - e.1.height ∧ H - e.1.height < levels.length) := by
  induction leaves with
  | nil =>
    intro levels out h
    simp only [drawLeaves, Outcome.done.injEq] at h
    subst h
    refine ⟨rfl, fun d => ?_, (fun e he => by cases he)⟩
    simp [layerCells]
  | cons e es ih =>
    intro levels out h
    simp only [drawLeaves] at h
    cases hd : draw e.1 e.2 with
    | none => rw [hd] at h; cases h
    | some b =>
      cases b with
      | false =>
        rw [hd] at h
        obtain ⟨h1, h2, h3⟩ := ih _ _ h
        refine ⟨h1, fun d => ?_, fun e' he' hd' => ?_⟩
        · rw [h2]; unfold layerCells; simp [List.filter_cons, hd]
        · rcases List.mem_cons.1 he' with rfl | he'
          · rw [hd] at hd'; cases hd'
          · exact h3 e' he' hd'
      | true =>
        rw [hd] at h
        dsimp only at h
        split at h
        · next hr =>
          obtain ⟨h1, h2, h3⟩ := ih _ _ h
          rw [List.length_modify] at h1 h3
          refine ⟨h1, fun d => ?_, fun e' he' hd' => ?_⟩
          · rw [h2, List.getElem?_modify]
            by_cases hdd : (H - e.1.height).toNat = d
            · have : H - e.1.height = d := by omega
              cases levels[d]? with
              | none => rfl
              | some l => simp [layerCells, List.filter_cons, hd, hdd, this]
            · have : ¬ H - e.1.height = d := by omega
              cases levels[d]? with
              | none => rfl
              | some l => simp [layerCells, List.filter_cons, hd, hdd, this]
          · rcases List.mem_cons.1 he' with rfl | he'
            · exact hr
            · exact h3 e' he' hd'
        · cases h

/-- The layers of a block that is drawn at height `h`, in a map of height `H` with cells of width `w`. -/
def picture (draw : NdtreeIndex 3 → ℚ → Option Bool) (colour : ColourMode) (H : Nat) (w : ℚ) (leaves : List (NdtreeIndex 3 × ℚ)) (h : Int) :
    List CellLayer :=
  (List.range ((H : Int) + 1 - h).toNat).map fun (d : Nat) => ⟨heightToCellWidth w ((H : Int) - d).toNat, layerCells draw colour H w leaves d⟩

/-- The widths of the layers are those of a map of height `H` with cells of width `w`. -/
def WidthsFit (H : Nat) (w : ℚ) (layers : List CellLayer) : Prop :=
  ∀ (d : Nat) (l : CellLayer), layers[d]? = some l → l.width = heightToCellWidth w ((H : Int) - d).toNat

theorem picture_get (draw : NdtreeIndex 3 → ℚ → Option Bool) (colour : ColourMode) (H : Nat) (w : ℚ) (leaves : List (NdtreeIndex 3 × ℚ)) (h : Int)
    (d : Nat) : (picture draw colour H w leaves h)[d]? =
      if d < ((H : Int) + 1 - h).toNat then some ⟨heightToCellWidth w ((H : Int) - d).toNat, layerCells draw colour H w leaves d⟩ else none := by
  unfold picture
  rw [List.getElem?_map]
  split
  · next hd => rw [List.getElem?_range hd]; rfl
  · next hd => rw [List.getElem?_eq_none (by rw [List.length_range]; omega)]; rfl

theorem picture_fit (draw : NdtreeIndex 3 → ℚ → Option Bool) (colour : ColourMode) (H : Nat) (w : ℚ) (leaves : List (NdtreeIndex 3 × ℚ)) (h : Int) :
    WidthsFit H w (picture draw colour H w leaves h) := by
  intro d l hl
  rw [picture_get] at hl
  split at hl
  · cases hl; rfl
  · cases hl

theorem drawVoxels_spec {draw : NdtreeIndex 3 → ℚ → Option Bool} {colour : ColourMode} {H : Nat} {w : ℚ} {h : Int} {leaves : List (NdtreeIndex 3 × ℚ)}
    {old out : List CellLayer} (hold : WidthsFit H w old)
    (hd : drawVoxels draw colour H w ((H : Int) + 1 - h) leaves old = .done out) :
    h ≤ H ∧ out = picture draw colour H w leaves h ∧ ∀ e ∈ leaves, draw e.1 e.2 = some true → h ≤ e.1.height ∧ e.1.height ≤ H := by
  unfold drawVoxels at hd
  split at hd
  · cases hd
  · next hn =>
    cases hl : drawLeaves draw colour H w leaves (List.replicate ((H : Int) + 1 - h).toNat []) with
    | abort => rw [hl] at hd; cases hd
    | undefined => rw [hl] at hd; cases hd
    | done levels =>
      rw [hl] at hd
      simp only [Outcome.bind] at hd
      unfold drawMultiResolutionVoxels at hd
      obtain ⟨h1, h2, h3⟩ := drawLeaves_spec _ _ _ _ _ _ _ hl
      rw [List.length_replicate] at h1 h3
      split at hd
      · cases hd
      · next hne =>
        have hlen : 0 < levels.length := List.length_pos_iff.2 hne
        refine ⟨by omega, ?_, fun e he hs => ?_⟩
        · cases hd
          apply List.ext_getElem?
          intro d
          rw [picture_get, List.getElem?_mapIdx, h2, List.getElem?_replicate]
          by_cases hlt : d < ((H : Int) + 1 - h).toNat
          · rw [if_pos hlt, if_pos hlt]
            cases ho : old[d]? with
            | none => simp
            | some l => simp [hold d l ho]
          · rw [if_neg hlt, if_neg hlt]; rfl
        · have := h3 e he hs
          omega

/-! ## The state of the display -/

namespace VoxelDisplay

/-- The block is shown at height `h`, as it is in the map. -/
def Drawn (s : VoxelDisplay) (m : HashedWaveletOctree) (k : Index 3) (b : WaveletBlock) (h : Int) : Prop :=
  0 ≤ h ∧ h ≤ m.config.treeHeight ∧
  s.layers.getBlock k = some (picture s.draws s.colour m.config.treeHeight m.config.minCellWidth (b.forEachLeaf k h) h) ∧
  ∀ e ∈ b.forEachLeaf k h, s.draws e.1 e.2 = some true → h ≤ e.1.height ∧ e.1.height ≤ m.config.treeHeight

/-- Every block of the map is shown or queued or, if the map has changed since the last update, will be queued by the next one. -/
def Fresh (s : VoxelDisplay) (m : HashedWaveletOctree) : Prop :=
  ∀ k b, m.blocks.getBlock k = some b → s.queue.hasBlock k = true ∨
    (s.lastUpdate < b.lastUpdated ∧ s.selector.accelerator ≠ some s.version) ∨ ∃ h, s.Drawn m k b h

/-- Invariant of the display's bookkeeping. -/
structure Base (H : Nat) (w : ℚ) (s : VoxelDisplay) : Prop where
  widths : ∀ k ls, s.layers.getBlock k = some ls → WidthsFit H w ls
  layerKeys : s.layers.keys.Nodup
  queueKeys : s.queue.keys.Nodup
  term : 0 ≤ s.termHeight
  heights : ∀ k h, s.queue.getBlock k = some h → 0 ≤ h
  acc : ∀ v, s.selector.accelerator = some v → v ≤ s.version
  synced : ∀ m, s.map = some (.hashedWavelet m) → s.selector.accelerator = some s.version →
    (∀ k, s.layers.hasBlock k = true → m.blocks.hasBlock k = true) ∧ ∀ k, s.queue.hasBlock k = true → m.blocks.hasBlock k = true

/-- What a frame leaves alone. -/
structure Kept (s s' : VoxelDisplay) : Prop where
  map : s'.map = s.map
  version : s'.version = s.version
  selector : s'.selector = s.selector
  visible : s'.visible = s.visible
  term : s'.termHeight = s.termHeight
  colour : s'.colour = s.colour
  lastUpdate : s'.lastUpdate = s.lastUpdate

theorem Kept.refl (s : VoxelDisplay) : Kept s s := ⟨rfl, rfl, rfl, rfl, rfl, rfl, rfl⟩

theorem Kept.trans {s t u : VoxelDisplay} (h : Kept s t) (g : Kept t u) : Kept s u :=
  ⟨g.map.trans h.map, g.version.trans h.version, g.selector.trans h.selector, g.visible.trans h.visible, g.term.trans h.term,
    g.colour.trans h.colour, g.lastUpdate.trans h.lastUpdate⟩

theorem Kept.draws {s s' : VoxelDisplay} (h : Kept s s') : s'.draws = s.draws := by
  unfold VoxelDisplay.draws VoxelDisplay.nodeValue
  rw [h.map, h.version, h.selector]

theorem Kept.drawn {s s' : VoxelDisplay} (h : Kept s s') {m : HashedWaveletOctree} {k : Index 3} {b : WaveletBlock} {x : Int}
    (hl : s'.layers.getBlock k = s.layers.getBlock k) (hd : s.Drawn m k b x) : s'.Drawn m k b x := by
  unfold Drawn at hd ⊢
  rw [h.draws, h.colour, hl]
  exact hd

theorem draws_band (s : VoxelDisplay) (h : s.selector.mode = .band) :
    s.draws = fun _ v => some !(decide (v < s.selector.bandMin) || decide (s.selector.bandMax < v) || s.selector.isUnknown v) := by
  funext n v
  unfold draws CellSelector.shouldBeDrawn
  rw [h]

/-! ### The queue -/

theorem drawQueue_spec {H : Nat} {w : ℚ} (m : HashedWaveletOctree) (hH : m.config.treeHeight = H) (hw : m.config.minCellWidth = w) :
    ∀ (ks : List (Index 3)) (cut : Nat) (s s' : VoxelDisplay), s.map = some (.hashedWavelet m) → s.Base H w → ks.Nodup →
      (∀ k ∈ ks, s.queue.hasBlock k = true) → drawQueue m cut ks s = .done s' →
      Kept s s' ∧ s'.forceLod = s.forceLod ∧ s'.Base H w ∧ s'.queue.length ≤ s.queue.length ∧
      ((∃ k ∈ ks, m.blocks.hasBlock k = true) → s'.queue.length < s.queue.length) ∧
      ∀ k b, m.blocks.getBlock k = some b →
        (s'.queue.getBlock k = s.queue.getBlock k ∧ s'.layers.getBlock k = s.layers.getBlock k) ∨
          (s'.queue.getBlock k = none ∧ ∃ h, s.queue.getBlock k = some h ∧ s'.Drawn m k b h) := by
  intro ks
  induction ks with
  | nil =>
    intro cut s s' _ hb _ _ h
    simp only [drawQueue, Outcome.done.injEq] at h
    subst h
    exact ⟨.refl _, rfl, hb, le_refl _, (fun ⟨k, hk, _⟩ => by cases hk), fun k b _ => .inl ⟨rfl, rfl⟩⟩
  | cons k ks ih =>
    intro cut s s' hm hb hnd hin h
    rw [List.nodup_cons] at hnd
    have hink := hin k List.mem_cons_self
    simp only [drawQueue] at h
    cases hk : m.blocks.getBlock k with
    | none =>
      rw [hk] at h
      obtain ⟨i1, i2, i3, i4, i5, i6⟩ := ih cut s s' hm hb hnd.2 (fun k hk => hin k (List.mem_cons_of_mem _ hk)) h
      refine ⟨i1, i2, i3, i4, ?_, i6⟩
      rintro ⟨j, hj, hmj⟩
      rcases List.mem_cons.1 hj with rfl | hj
      · unfold SpatialHash.hasBlock at hmj; rw [hk] at hmj; cases hmj
      · exact i5 ⟨j, hj, hmj⟩
    | some b =>
      rw [hk] at h
      dsimp only at h
      cases hd : drawVoxels s.draws s.colour m.config.treeHeight m.config.minCellWidth
          ((m.config.treeHeight : Int) + 1 - (s.queue.getBlock k).getD 0) (b.forEachLeaf k ((s.queue.getBlock k).getD 0)) ((s.layers.getBlock k).getD []) with
      | abort => rw [hd] at h; cases h
      | undefined => rw [hd] at h; cases h
      | done layers =>
        rw [hd] at h
        simp only [Outcome.bind] at h
        have hfit : WidthsFit m.config.treeHeight m.config.minCellWidth ((s.layers.getBlock k).getD []) := by
          cases e : s.layers.getBlock k with
          | none => intro d l hl; cases hl
          | some ls => rw [hH, hw]; exact hb.widths k ls e
        obtain ⟨h1, h2, h3⟩ := drawVoxels_spec hfit hd
        have h0 : 0 ≤ (s.queue.getBlock k).getD 0 := by
          cases e : s.queue.getBlock k with
          | none => exact le_refl _
          | some x => exact hb.heights k x e
        generalize hs1 : ({ s with layers := s.layers.put k layers, queue := s.queue.eraseBlock k } : VoxelDisplay) = s1 at h
        have hkept : Kept s s1 := by subst hs1; exact ⟨rfl, rfl, rfl, rfl, rfl, rfl, rfl⟩
        have hlay : ∀ j, s1.layers.getBlock j = if j = k then some layers else s.layers.getBlock j := by
          subst hs1; intro j; exact SpatialHash.getBlock_put _ _ _ _
        have hque : ∀ j, s1.queue.getBlock j = if j = k then none else s.queue.getBlock j := by
          subst hs1; intro j; exact SpatialHash.getBlock_erase _ _ _
        have hlod : s1.forceLod = s.forceLod := by subst hs1; rfl
        have hlen : s1.queue.length < s.queue.length := by subst hs1; exact SpatialHash.length_erase _ _ hink
        have hdrawn : s1.Drawn m k b ((s.queue.getBlock k).getD 0) := by
          refine ⟨h0, h1, ?_, ?_⟩
          · rw [hlay, if_pos rfl, hkept.draws, hkept.colour, h2]
          · rw [hkept.draws]; exact h3
        have hb1 : s1.Base H w := by
          refine ⟨fun j ls hj => ?_, ?_, ?_, ?_, fun j x hj => ?_, ?_, ?_⟩
          · rw [hlay] at hj
            split at hj
            · cases hj
              rw [h2, ← hH, ← hw]; exact picture_fit _ _ _ _ _ _
            · exact hb.widths j ls hj
          · subst hs1; exact SpatialHash.keys_put _ _ _ hb.layerKeys
          · subst hs1; exact SpatialHash.keys_erase _ _ hb.queueKeys
          · rw [hkept.term]; exact hb.term
          · rw [hque] at hj
            split at hj
            · cases hj
            · exact hb.heights j x hj
          · rw [hkept.selector, hkept.version]; exact hb.acc
          · intro m' hm' ha
            rw [hkept.map] at hm'
            rw [hkept.selector, hkept.version] at ha
            obtain ⟨g1, g2⟩ := hb.synced m' hm' ha
            have hmm : m' = m := by rw [hm] at hm'; cases hm'; rfl
            subst hmm
            refine ⟨fun j hj => ?_, fun j hj => ?_⟩
            · unfold SpatialHash.hasBlock at hj
              rw [hlay] at hj
              split at hj
              · next e => subst e; unfold SpatialHash.hasBlock; rw [hk]; rfl
              · exact g1 j hj
            · unfold SpatialHash.hasBlock at hj
              rw [hque] at hj
              split at hj
              · cases hj
              · exact g2 j hj
        have hm1 : s1.map = some (.hashedWavelet m) := by rw [hkept.map, hm]
        have hcase : s1.queue.getBlock k = none ∧ ∃ h, s.queue.getBlock k = some h ∧ s1.Drawn m k b h := by
          refine ⟨by rw [hque, if_pos rfl], ?_⟩
          cases e : s.queue.getBlock k with
          | none => unfold SpatialHash.hasBlock at hink; rw [e] at hink; cases hink
          | some x => rw [e] at hdrawn; exact ⟨x, rfl, hdrawn⟩
        split at h
        · cases h
          refine ⟨hkept, hlod, hb1, hlen.le, fun _ => hlen, fun j bj hj => ?_⟩
          by_cases hjk : j = k
          · subst hjk
            rw [hk] at hj; cases hj
            exact .inr hcase
          · exact .inl ⟨by rw [hque, if_neg hjk], by rw [hlay, if_neg hjk]⟩
        · have hin1 : ∀ j ∈ ks, s1.queue.hasBlock j = true := by
            intro j hj
            have hjk : j ≠ k := fun e => hnd.1 (e ▸ hj)
            unfold SpatialHash.hasBlock
            rw [hque, if_neg hjk]
            exact hin j (List.mem_cons_of_mem _ hj)
          obtain ⟨i1, i2, i3, i4, i5, i6⟩ := ih _ s1 s' hm1 hb1 hnd.2 hin1 h
          refine ⟨hkept.trans i1, i2.trans hlod, i3, le_trans i4 hlen.le, fun _ => lt_of_le_of_lt i4 hlen, fun j bj hj => ?_⟩
          rcases i6 j bj hj with ⟨g1, g2⟩ | ⟨g1, x, e1, e2⟩
          · by_cases hjk : j = k
            · subst hjk
              rw [hk] at hj; cases hj
              right
              obtain ⟨c1, x, c2, c3⟩ := hcase
              exact ⟨by rw [g1]; exact c1, x, c2, i1.drawn g2 c3⟩
            · left
              rw [g1, g2, hque, hlay, if_neg hjk, if_neg hjk]
              exact ⟨rfl, rfl⟩
          · right
            rw [hque] at e1
            split at e1
            · cases e1
            · exact ⟨g1, x, e1, e2⟩

/-! ### Levels of detail -/

/-- What an update of the levels of detail leaves alone. -/
theorem updateBlockLods_spec {H : Nat} {w : ℚ} (camera : Camera) (m : HashedWaveletOctree) :
    ∀ (ks : List (Index 3)) (s s' : VoxelDisplay), s.map = some (.hashedWavelet m) → (∀ k ∈ ks, m.blocks.hasBlock k = true) → s.Base H w →
      updateBlockLods camera m.config.treeHeight m.config.minCellWidth ks s = .done s' →
      Kept s s' ∧ s'.forceLod = s.forceLod ∧ s'.layers = s.layers ∧ s'.Base H w ∧ (∀ k, s.queue.hasBlock k = true → s'.queue.hasBlock k = true) ∧
      (∀ k, k ∉ ks → s'.queue.getBlock k = s.queue.getBlock k) ∧
      ∀ k ∈ ks, ∃ r, recommendedHeight camera m.config.treeHeight m.config.minCellWidth k s.termHeight ((m.config.treeHeight : Int) - 1) = some r ∧
        (s'.queue.getBlock k = some r ∨ (s'.queue.getBlock k = none ∧
          ∀ c, s.currentHeight m.config.treeHeight k = some c → s.termHeight ≤ c ∧ r - 1 ≤ c ∧ c ≤ r)) := by
  intro ks
  induction ks with
  | nil =>
    intro s s' _ _ hb h
    simp only [updateBlockLods, Outcome.done.injEq] at h
    subst h
    exact ⟨.refl _, rfl, rfl, hb, fun _ h => h, fun _ _ => rfl, (fun k hk => by cases hk)⟩
  | cons k ks ih =>
    intro s s' hm hks hb h
    simp only [updateBlockLods] at h
    cases hr : recommendedHeight camera m.config.treeHeight m.config.minCellWidth k s.termHeight ((m.config.treeHeight : Int) - 1) with
    | none => rw [hr] at h; cases h
    | some r =>
      rw [hr] at h
      dsimp only at h
      have hr0 : 0 ≤ r := by
        have := hb.term
        unfold recommendedHeight at hr
        split at hr
        · cases hr; exact this
        · split at hr
          · cases hr
          · cases hr; exact le_trans this (le_max_left _ _)
      -- putting the block into the queue
      have hput : ({ s with queue := s.queue.put k r } : VoxelDisplay).Base H w := by
        refine ⟨hb.widths, hb.layerKeys, SpatialHash.keys_put _ _ _ hb.queueKeys, hb.term, fun j x hj => ?_, hb.acc, fun m' hm' ha => ?_⟩
        · dsimp only at hj
          rw [SpatialHash.getBlock_put] at hj
          split at hj
          · cases hj; exact hr0
          · exact hb.heights j x hj
        · obtain ⟨g1, g2⟩ := hb.synced m' hm' ha
          refine ⟨g1, fun j hj => ?_⟩
          dsimp only at hj
          rw [SpatialHash.hasBlock_put, Bool.or_eq_true, decide_eq_true_eq] at hj
          rcases hj with rfl | hj
          · have : m' = m := by rw [hm] at hm'; cases hm'; rfl
            subst this
            exact hks _ List.mem_cons_self
          · exact g2 j hj
      have key : ∀ s1 : VoxelDisplay, (s1 = s ∨ s1 = { s with queue := s.queue.put k r }) →
          (s1.queue.getBlock k = some r ∨ (s1.queue.getBlock k = none ∧
            ∀ c, s.currentHeight m.config.treeHeight k = some c → s.termHeight ≤ c ∧ r - 1 ≤ c ∧ c ≤ r)) →
          updateBlockLods camera m.config.treeHeight m.config.minCellWidth ks s1 = .done s' →
          Kept s s' ∧ s'.forceLod = s.forceLod ∧ s'.layers = s.layers ∧ s'.Base H w ∧ (∀ j, s.queue.hasBlock j = true → s'.queue.hasBlock j = true) ∧
          (∀ j, j ∉ k :: ks → s'.queue.getBlock j = s.queue.getBlock j) ∧
          ∀ j ∈ k :: ks, ∃ r, recommendedHeight camera m.config.treeHeight m.config.minCellWidth j s.termHeight ((m.config.treeHeight : Int) - 1) = some r ∧
            (s'.queue.getBlock j = some r ∨ (s'.queue.getBlock j = none ∧
              ∀ c, s.currentHeight m.config.treeHeight j = some c → s.termHeight ≤ c ∧ r - 1 ≤ c ∧ c ≤ r)) := by
        intro s1 hs1 hq h
        have hkept : Kept s s1 := by rcases hs1 with rfl | rfl; exact .refl _; exact ⟨rfl, rfl, rfl, rfl, rfl, rfl, rfl⟩
        have hlay : s1.layers = s.layers := by rcases hs1 with rfl | rfl <;> rfl
        have hlod : s1.forceLod = s.forceLod := by rcases hs1 with rfl | rfl <;> rfl
        have hb1 : s1.Base H w := by rcases hs1 with rfl | rfl; exact hb; exact hput
        have hmono : ∀ j, s.queue.hasBlock j = true → s1.queue.hasBlock j = true := by
          rcases hs1 with rfl | rfl
          · exact fun _ h => h
          · intro j hj; dsimp only; rw [SpatialHash.hasBlock_put, hj, Bool.or_true]
        have hsame : ∀ j, j ≠ k → s1.queue.getBlock j = s.queue.getBlock j := by
          rcases hs1 with rfl | rfl
          · exact fun _ _ => rfl
          · intro j hj; dsimp only; rw [SpatialHash.getBlock_put, if_neg hj]
        have hcur : ∀ j, s1.currentHeight m.config.treeHeight j = s.currentHeight m.config.treeHeight j := by
          intro j; unfold currentHeight; rw [hlay]
        obtain ⟨i1, i2, i3, i4, i5, i6, i7⟩ := ih s1 s' (by rw [hkept.map]; exact hm) (fun j hj => hks j (List.mem_cons_of_mem _ hj)) hb1 h
        refine ⟨hkept.trans i1, i2.trans hlod, i3.trans hlay, i4, fun j hj => i5 j (hmono j hj), fun j hj => ?_, fun j hj => ?_⟩
        · rw [List.mem_cons, not_or] at hj
          rw [i6 j hj.2, hsame j hj.1]
        · by_cases hjk : j ∈ ks
          · obtain ⟨x, g1, g2⟩ := i7 j hjk
            rw [hkept.term] at g1 g2
            rw [hcur] at g2
            exact ⟨x, g1, g2⟩
          · rcases List.mem_cons.1 hj with rfl | hj
            · refine ⟨r, hr, ?_⟩
              rw [i6 j hjk]; exact hq
            · exact absurd hj hjk
      have hputq : (s.queue.put k r).getBlock k = some r := by rw [SpatialHash.getBlock_put, if_pos rfl]
      split at h
      · exact key _ (.inr rfl) (.inl hputq) h
      · next hnq =>
        have hnone : s.queue.getBlock k = none := by
          cases e : s.queue.getBlock k with
          | none => rfl
          | some x => unfold SpatialHash.hasBlock at hnq; rw [e] at hnq; exact absurd rfl hnq
        cases hc : s.currentHeight m.config.treeHeight k with
        | none =>
          rw [hc] at h
          exact key _ (.inl rfl) (.inr ⟨hnone, by rw [hc]; intro c hc; cases hc⟩) h
        | some c =>
          rw [hc] at h
          dsimp only at h
          split at h
          · exact key _ (.inr rfl) (.inl hputq) h
          · next hcc =>
            refine key _ (.inl rfl) (.inr ⟨hnone, ?_⟩) h
            rw [hc]; intro c' hc'; cases hc'
            omega

/-! ### Frames -/

/-- The map has the given cell width and tree height. -/
def Uniform (H : Nat) (w : ℚ) (s : VoxelDisplay) : Prop := ∀ m, s.map = some m → m.treeHeight = H ∧ m.minCellWidth = w

/-- Every block that is not queued and shown has an appropriate level of detail, every queued block will get it. -/
def LodOk (s : VoxelDisplay) (camera : Camera) (m : HashedWaveletOctree) : Prop :=
  ∀ k b, m.blocks.getBlock k = some b →
    ∃ r, recommendedHeight camera m.config.treeHeight m.config.minCellWidth k s.termHeight ((m.config.treeHeight : Int) - 1) = some r ∧
      (s.queue.getBlock k = some r ∨ (s.queue.getBlock k = none ∧
        ∀ c, s.currentHeight m.config.treeHeight k = some c → s.termHeight ≤ c ∧ r - 1 ≤ c ∧ c ≤ r))

theorem recommendedHeight_ge {camera : Camera} {H : Nat} {w : ℚ} {k : Index 3} {lo hi r : Int} (h : recommendedHeight camera H w k lo hi = some r) :
    lo ≤ r := by
  unfold recommendedHeight at h
  split at h
  · cases h; exact le_refl _
  · split at h
    · cases h
    · cases h; exact le_max_left _ _

theorem Drawn.currentHeight {s : VoxelDisplay} {m : HashedWaveletOctree} {k : Index 3} {b : WaveletBlock} {h : Int} (hd : s.Drawn m k b h) :
    s.currentHeight m.config.treeHeight k = some h := by
  obtain ⟨h0, h1, h2, _⟩ := hd
  unfold VoxelDisplay.currentHeight
  rw [h2]
  simp only [Option.map_some, picture, List.length_map, List.length_range, Option.some.injEq]
  omega

theorem updateLod_spec {H : Nat} {w : ℚ} {camera : Camera} {m : HashedWaveletOctree} {s s' : VoxelDisplay} (hm : s.map = some (.hashedWavelet m))
    (hv : s.visible = true) (hb : s.Base H w) (h : s.updateLod camera = .done s') :
    Kept s s' ∧ s'.forceLod = s.forceLod ∧ s'.layers = s.layers ∧ s'.Base H w ∧ (∀ k, s.queue.hasBlock k = true → s'.queue.hasBlock k = true) ∧
      s'.LodOk camera m := by
  unfold updateLod at h
  rw [hv, hm] at h
  simp only [Bool.not_true, Bool.false_eq_true, if_false] at h
  obtain ⟨h1, h2, h3, h4, h5, _, h7⟩ := updateBlockLods_spec camera m (m.blocks.map Prod.fst) s s' hm (fun k hk => SpatialHash.hasBlock_iff.2 hk) hb h
  refine ⟨h1, h2, h3, h4, h5, fun k b hk => ?_⟩
  obtain ⟨r, g1, g2⟩ := h7 k (List.mem_map.2 ⟨_, SpatialHash.mem_of_getBlock hk, rfl⟩)
  rw [h1.term]
  refine ⟨r, g1, ?_⟩
  unfold VoxelDisplay.currentHeight at g2 ⊢
  rw [h3]
  exact g2

theorem processQueue_spec {H : Nat} {w : ℚ} {sort : List QueuedBlock → List QueuedBlock} (hsort : ∀ l, (sort l).Perm l) {cut : Nat} {p : Point 3}
    {m : HashedWaveletOctree} {s s' : VoxelDisplay} (hm : s.map = some (.hashedWavelet m)) (hv : s.visible = true) (hu : s.Uniform H w) (hb : s.Base H w)
    (h : s.processQueue sort cut p = .done s') :
    Kept s s' ∧ s'.forceLod = s.forceLod ∧ s'.Base H w ∧ s'.queue.length ≤ s.queue.length ∧
      ((∃ k, s.queue.hasBlock k = true ∧ m.blocks.hasBlock k = true) → s'.queue.length < s.queue.length) ∧
      ∀ k b, m.blocks.getBlock k = some b →
        (s'.queue.getBlock k = s.queue.getBlock k ∧ s'.layers.getBlock k = s.layers.getBlock k) ∨
          (s'.queue.getBlock k = none ∧ ∃ h, s.queue.getBlock k = some h ∧ s'.Drawn m k b h) := by
  unfold processQueue at h
  rw [hv, hm] at h
  simp only [Bool.not_true, Bool.false_eq_true, if_false] at h
  split at h
  · have hperm : ((sort (s.queue.map (s.queuedBlock m.config.treeHeight m.config.minCellWidth p))).map QueuedBlock.index).Perm s.queue.keys := by
      refine ((hsort _).map _).trans ?_
      rw [List.map_map]
      exact List.Perm.refl _
    obtain ⟨h1, h2, h3, h4, h5, h6⟩ := drawQueue_spec m (hu _ hm).1 (hu _ hm).2 _ cut s s' hm hb (hperm.nodup_iff.2 hb.queueKeys)
      (fun k hk => SpatialHash.hasBlock_iff.2 (hperm.mem_iff.1 hk)) h
    refine ⟨h1, h2, h3, h4, ?_, h6⟩
    rintro ⟨k, hk, hmk⟩
    exact h5 ⟨k, hperm.mem_iff.2 (SpatialHash.hasBlock_iff.1 hk), hmk⟩
  · cases h

/-- One frame, for a visible display of a hashed map. -/
theorem prerender_spec {H : Nat} {w : ℚ} {camera : Camera} {moved : Bool} {sort : List QueuedBlock → List QueuedBlock} (hsort : ∀ l, (sort l).Perm l)
    {cut : Nat} {m : HashedWaveletOctree} {s s' : VoxelDisplay} (hm : s.map = some (.hashedWavelet m)) (hv : s.visible = true) (hu : s.Uniform H w)
    (hb : s.Base H w) (h : s.prerender camera moved sort cut = .done s') :
    Kept s s' ∧ s'.forceLod = false ∧ s'.Base H w ∧ (s.Fresh m → s'.Fresh m) ∧ ((s.forceLod = true ∨ moved = true ∨ s.LodOk camera m) → s'.LodOk camera m) ∧
      (s.forceLod = false → moved = false → s'.queue.length ≤ s.queue.length ∧
        ((∃ k, s.queue.hasBlock k = true ∧ m.blocks.hasBlock k = true) → s'.queue.length < s.queue.length)) := by
  unfold prerender at h
  -- after the levels of detail have been updated
  have key : ∀ s1 : VoxelDisplay, Kept s s1 → s1.forceLod = false → s1.layers = s.layers → s1.Base H w →
      (∀ k, s.queue.hasBlock k = true → s1.queue.hasBlock k = true) → ((s.forceLod = true ∨ moved = true ∨ s.LodOk camera m) → s1.LodOk camera m) →
      s1.processQueue sort cut camera.position = .done s' →
      Kept s s' ∧ s'.forceLod = false ∧ s'.Base H w ∧ (s.Fresh m → s'.Fresh m) ∧
        ((s.forceLod = true ∨ moved = true ∨ s.LodOk camera m) → s'.LodOk camera m) := by
    intro s1 hk hf hl hb1 hq hlod hp
    obtain ⟨h1, h2, h3, h4, _, h6⟩ := processQueue_spec hsort (by rw [hk.map]; exact hm) (by rw [hk.visible]; exact hv)
      (by unfold Uniform; rw [hk.map]; exact hu) hb1 hp
    refine ⟨hk.trans h1, h2.trans hf, h3, fun hfr k b hkb => ?_, fun hc k b hkb => ?_⟩
    · rcases h6 k b hkb with ⟨g1, g2⟩ | ⟨_, x, _, g3⟩
      · rcases hfr k b hkb with e | e | ⟨x, e⟩
        · left
          have := hq k e
          unfold SpatialHash.hasBlock at this ⊢
          rw [g1]; exact this
        · right; left; rw [(hk.trans h1).lastUpdate, (hk.trans h1).selector, (hk.trans h1).version]; exact e
        · right; right
          exact ⟨x, (hk.trans h1).drawn (by rw [g2, hl]) e⟩
      · exact .inr (.inr ⟨x, g3⟩)
    · obtain ⟨r, e1, e2⟩ := hlod hc k b hkb
      rw [h1.term]
      refine ⟨r, e1, ?_⟩
      rcases h6 k b hkb with ⟨g1, g2⟩ | ⟨g1, x, g2, g3⟩
      · have : s'.currentHeight m.config.treeHeight k = s1.currentHeight m.config.treeHeight k := by
          unfold VoxelDisplay.currentHeight; rw [g2]
        rw [g1, this]; exact e2
      · right
        refine ⟨g1, fun c hc => ?_⟩
        rw [g3.currentHeight] at hc
        cases hc
        rcases e2 with e2 | ⟨e2, _⟩
        · rw [g2] at e2
          cases e2
          have := recommendedHeight_ge e1
          exact ⟨this, by omega, le_refl _⟩
        · rw [g2] at e2; cases e2
  by_cases hforce : (s.forceLod || moved) = true
  · rw [if_pos hforce] at h
    cases hl : s.updateLod camera with
    | abort => rw [hl] at h; cases h
    | undefined => rw [hl] at h; cases h
    | done s0 =>
      rw [hl] at h
      simp only [Outcome.bind] at h
      obtain ⟨h1, h2, h3, h4, h5, h6⟩ := updateLod_spec hm hv hb hl
      have hk : Kept s { s0 with forceLod := false } := ⟨h1.map, h1.version, h1.selector, h1.visible, h1.term, h1.colour, h1.lastUpdate⟩
      obtain ⟨g1, g2, g3, g4, g5⟩ := key { s0 with forceLod := false } hk rfl h3
        ⟨h4.widths, h4.layerKeys, h4.queueKeys, h4.term, h4.heights, h4.acc, h4.synced⟩ h5 (fun _ => h6) h
      refine ⟨g1, g2, g3, g4, g5, fun e1 e2 => ?_⟩
      rw [e1, e2] at hforce; cases hforce
  · rw [if_neg hforce] at h
    simp only [Outcome.bind] at h
    have hf : s.forceLod = false ∧ moved = false := by
      cases e1 : s.forceLod <;> cases e2 : moved <;> simp_all
    obtain ⟨g1, g2, g3, g4, g5⟩ := key s (.refl _) hf.1 rfl hb (fun _ h => h) (by
      rintro (e | e | e)
      · rw [hf.1] at e; cases e
      · rw [hf.2] at e; cases e
      · exact e) h
    obtain ⟨_, _, _, h4, h5, _⟩ := processQueue_spec hsort hm hv hu hb h
    exact ⟨g1, g2, g3, g4, g5, fun _ _ => ⟨h4, h5⟩⟩

/-- A frame of a display that is hidden or has no hashed map. -/
theorem prerender_idle {camera : Camera} {moved : Bool} {sort : List QueuedBlock → List QueuedBlock} {cut : Nat} {s s' : VoxelDisplay}
    (hi : s.visible = false ∨ ∀ m, s.map ≠ some (.hashedWavelet m)) (h : s.prerender camera moved sort cut = .done s') :
    s' = s ∨ s' = { s with forceLod := false } := by
  have hl : s.updateLod camera = .done s := by
    unfold updateLod
    rcases hi with hi | hi
    · rw [hi]; rfl
    · split
      · rfl
      · split
        · next m e => exact absurd e (hi m)
        · rfl
  have hp : ∀ s1 : VoxelDisplay, s1.visible = s.visible → s1.map = s.map → s1.processQueue sort cut camera.position = .done s1 := by
    intro s1 e1 e2
    unfold processQueue
    rcases hi with hi | hi
    · rw [e1, hi]; rfl
    · split
      · rfl
      · split
        · next m e => exact absurd (e2 ▸ e) (hi m)
        · rfl
  unfold prerender at h
  split at h
  · rw [hl] at h
    simp only [Outcome.bind] at h
    rw [hp { s with forceLod := false } rfl rfl] at h
    cases h; exact .inr rfl
  · simp only [Outcome.bind] at h
    rw [hp s rfl rfl] at h
    cases h; exact .inl rfl

/-! ### Updates -/

theorem enqueue_spec (redrawAll : Bool) : ∀ (l : List (Index 3 × WaveletBlock)) (s : VoxelDisplay),
    Kept s (enqueue redrawAll l s) ∧ (enqueue redrawAll l s).layers = s.layers ∧ (enqueue redrawAll l s).maxTermHeight = s.maxTermHeight ∧
      (s.queue.keys.Nodup → (enqueue redrawAll l s).queue.keys.Nodup) ∧
      (∀ k, s.queue.hasBlock k = true → (enqueue redrawAll l s).queue.hasBlock k = true) ∧
      (∀ e ∈ l, (redrawAll = true ∨ s.lastUpdate < e.2.lastUpdated) →
        (enqueue redrawAll l s).queue.hasBlock e.1 = true ∧ (enqueue redrawAll l s).forceLod = true) ∧
      (s.forceLod = true → (enqueue redrawAll l s).forceLod = true) ∧
      ∀ k h, (enqueue redrawAll l s).queue.getBlock k = some h → s.queue.getBlock k = some h ∨ (h = s.termHeight ∧ ∃ b, (k, b) ∈ l) := by
  intro l
  induction l with
  | nil =>
    intro s
    exact ⟨.refl _, rfl, rfl, id, fun _ h => h, (fun e he => by cases he), id, fun _ _ h => .inl h⟩
  | cons e l ih =>
    intro s
    simp only [enqueue]
    by_cases hc : (redrawAll || decide (s.lastUpdate < e.2.lastUpdated)) = true
    · rw [if_pos hc]
      obtain ⟨h1, h2, h3, h4, h5, h6, h7, h8⟩ := ih { s with queue := s.queue.put e.1 s.termHeight, forceLod := true }
      have hk : Kept s { s with queue := s.queue.put e.1 s.termHeight, forceLod := true } := ⟨rfl, rfl, rfl, rfl, rfl, rfl, rfl⟩
      refine ⟨hk.trans h1, h2, h3, fun hn => h4 (SpatialHash.keys_put _ _ _ hn), fun k hk => h5 k ?_, fun e' he' hx => ?_, fun _ => h7 rfl, fun k h hq => ?_⟩
      · rw [SpatialHash.hasBlock_put, hk, Bool.or_true]
      · rcases List.mem_cons.1 he' with rfl | he'
        · exact ⟨h5 _ (by rw [SpatialHash.hasBlock_put]; simp), h7 rfl⟩
        · exact h6 e' he' hx
      · rcases h8 k h hq with g | ⟨g1, b, g2⟩
        · rw [SpatialHash.getBlock_put] at g
          split at g
          · next hke => cases g; right; exact ⟨rfl, e.2, by rw [hke]; exact List.mem_cons_self⟩
          · exact .inl g
        · right; exact ⟨g1, b, List.mem_cons_of_mem _ g2⟩
    · rw [if_neg hc]
      obtain ⟨h1, h2, h3, h4, h5, h6, h7, h8⟩ := ih s
      refine ⟨h1, h2, h3, h4, h5, fun e' he' hx => ?_, h7, fun k h hq => ?_⟩
      · rcases List.mem_cons.1 he' with rfl | he'
        · exfalso; apply hc
          rcases hx with hx | hx <;> simp [hx]
        · exact h6 e' he' hx
      · rcases h8 k h hq with g | ⟨g1, b, g2⟩
        · exact .inl g
        · right; exact ⟨g1, b, List.mem_cons_of_mem _ g2⟩

/-- An update of a visible display of a hashed map. -/
structure Updated (m : HashedWaveletOctree) (redrawAll : Bool) (now : ℚ) (s s' : VoxelDisplay) : Prop where
  map : s'.map = s.map
  version : s'.version = s.version
  selector : s'.selector = { s.selector with accelerator := some s.version }
  visible : s'.visible = s.visible
  colour : s'.colour = s.colour
  lastUpdate : s'.lastUpdate = now
  termHeight : s'.termHeight = max 0 (min (m.config.treeHeight : Int) s.termHeight)
  layers : ∀ k, s'.layers.getBlock k = if m.blocks.hasBlock k then s.layers.getBlock k else none
  layerKeys : s.layers.keys.Nodup → s'.layers.keys.Nodup
  queueKeys : s.queue.keys.Nodup → s'.queue.keys.Nodup
  queued : ∀ k b, m.blocks.getBlock k = some b → (redrawAll = true ∨ s.lastUpdate < b.lastUpdated) → s'.queue.hasBlock k = true ∧ s'.forceLod = true
  kept : ∀ k, m.blocks.hasBlock k = true → s.queue.hasBlock k = true → s'.queue.hasBlock k = true
  heights : ∀ k h, s'.queue.getBlock k = some h → (s.queue.getBlock k = some h ∨ h = s'.termHeight) ∧ m.blocks.hasBlock k = true

theorem updateMap_hashed {m : HashedWaveletOctree} {redrawAll : Bool} {now : ℚ} {s s' : VoxelDisplay} (hv : s.visible = true)
    (hm : s.map = some (.hashedWavelet m)) (h : s.updateMap redrawAll now = .done s') : Updated m redrawAll now s s' := by
  unfold updateMap at h
  rw [hv, hm] at h
  simp only [Bool.not_true, Bool.false_eq_true, if_false, Outcome.done.injEq] at h
  generalize hs0 : ({ ({ s with map := some (.hashedWavelet m), visible := true, selector := s.selector.setMap (.hashedWavelet m) s.version } : VoxelDisplay).limitTermHeight
      (AnyMap.hashedWavelet m).treeHeight with
    layers := (({ s with map := some (.hashedWavelet m), visible := true, selector := s.selector.setMap (.hashedWavelet m) s.version } : VoxelDisplay).limitTermHeight
      (AnyMap.hashedWavelet m).treeHeight).layers.filter fun e => m.blocks.hasBlock e.1
    queue := (({ s with map := some (.hashedWavelet m), visible := true, selector := s.selector.setMap (.hashedWavelet m) s.version } : VoxelDisplay).limitTermHeight
      (AnyMap.hashedWavelet m).treeHeight).queue.filter fun e => m.blocks.hasBlock e.1 } : VoxelDisplay) = s0 at h
  obtain ⟨h1, h2, h3, h4, h5, h6, h7, h8⟩ := enqueue_spec redrawAll m.blocks s0
  have q0 : ∀ k, s0.queue.getBlock k = if m.blocks.hasBlock k then s.queue.getBlock k else none := by
    intro k; subst hs0; exact SpatialHash.getBlock_filter _ _ _
  have l0 : s0.lastUpdate = s.lastUpdate := by subst hs0; rfl
  have m0 : s0.map = s.map := by subst hs0; exact hm.symm
  have v0 : s0.version = s.version := by subst hs0; rfl
  have e0 : s0.selector = { s.selector with accelerator := some s.version } := by subst hs0; rfl
  have i0 : s0.visible = s.visible := by subst hs0; exact hv.symm
  have c0 : s0.colour = s.colour := by subst hs0; rfl
  have t0 : s0.termHeight = max 0 (min (m.config.treeHeight : Int) s.termHeight) := by subst hs0; rfl
  subst h
  refine ⟨h1.map.trans m0, h1.version.trans v0, h1.selector.trans e0, h1.visible.trans i0, h1.colour.trans c0, rfl, h1.term.trans t0, ?_, ?_, ?_, ?_, ?_, ?_⟩
  · intro k
    show (enqueue redrawAll m.blocks s0).layers.getBlock k = _
    rw [h2]; subst hs0; exact SpatialHash.getBlock_filter _ _ _
  · intro hn
    show (enqueue redrawAll m.blocks s0).layers.keys.Nodup
    rw [h2]; subst hs0; exact SpatialHash.keys_filter _ _ hn
  · intro hn; exact h4 (by subst hs0; exact SpatialHash.keys_filter _ _ hn)
  · intro k b hk hc
    exact h6 (k, b) (SpatialHash.mem_of_getBlock hk) (by rw [l0]; exact hc)
  · intro k hk hq
    apply h5
    unfold SpatialHash.hasBlock at hq ⊢
    rw [q0, if_pos hk]; exact hq
  · intro k x hx
    have hx : (enqueue redrawAll m.blocks s0).queue.getBlock k = some x := hx
    rcases h8 k x hx with g | ⟨g1, b, g2⟩
    · rw [q0] at g
      split at g
      · next hh => exact ⟨.inl g, hh⟩
      · cases g
    · exact ⟨.inr (g1.trans h1.term.symm), SpatialHash.hasBlock_iff.2 (List.mem_map.2 ⟨_, g2, rfl⟩)⟩

theorem updateMap_idle {redrawAll : Bool} {now : ℚ} {s s' : VoxelDisplay} (hi : s.visible = false ∨ s.map = none)
    (h : s.updateMap redrawAll now = .done s') : s' = s := by
  unfold updateMap at h
  rcases hi with hi | hi
  · rw [hi] at h; cases h; rfl
  · rw [hi] at h
    split at h <;> (cases h; rfl)

theorem Updated.base {H : Nat} {w : ℚ} {m : HashedWaveletOctree} {redrawAll : Bool} {now : ℚ} {s s' : VoxelDisplay} (hu : Updated m redrawAll now s s')
    (hm : s.map = some (.hashedWavelet m)) (hb : s.Base H w) : s'.Base H w := by
  refine ⟨fun k ls hk => ?_, hu.layerKeys hb.layerKeys, hu.queueKeys hb.queueKeys, ?_, fun k x hk => ?_, fun v hv => ?_, fun m' hm' _ => ?_⟩
  · rw [hu.layers] at hk
    split at hk
    · exact hb.widths k ls hk
    · cases hk
  · rw [hu.termHeight]; exact le_max_left _ _
  · rcases (hu.heights k x hk).1 with g | g
    · exact hb.heights k x g
    · rw [g, hu.termHeight]; exact le_max_left _ _
  · rw [hu.selector] at hv
    rw [hu.version]
    cases hv; exact le_refl _
  · rw [hu.map, hm] at hm'
    cases hm'
    constructor
    · intro k hk
      unfold SpatialHash.hasBlock at hk
      rw [hu.layers] at hk
      split at hk
      · assumption
      · cases hk
    · intro k hk
      unfold SpatialHash.hasBlock at hk
      obtain ⟨x, hx⟩ := Option.isSome_iff_exists.1 hk
      exact (hu.heights k x hx).2

theorem Base.of_other {H : Nat} {w : ℚ} {m : AnyMap} {redrawAll : Bool} {now : ℚ} {s s' : VoxelDisplay} (hv : s.visible = true)
    (hm : s.map = some m) (hno : ∀ x, m ≠ .hashedWavelet x) (hH : m.treeHeight = H) (hw : m.minCellWidth = w) (hb : s.Base H w)
    (h : s.updateMap redrawAll now = .done s') : s'.Base H w ∧ s'.map = s.map ∧ s'.visible = s.visible ∧ s'.lastUpdate = now := by
  unfold updateMap at h
  rw [hv, hm] at h
  simp only [Bool.not_true, Bool.false_eq_true, if_false] at h
  generalize hs0 : ({ s with map := some m, visible := true, selector := s.selector.setMap m s.version } : VoxelDisplay).limitTermHeight m.treeHeight = s0 at h
  have hacc : s0.selector.accelerator = s.selector.accelerator := by
    subst hs0
    unfold limitTermHeight CellSelector.setMap
    cases m with
    | hashedWavelet x => exact absurd rfl (hno x)
    | hashedBlocks x => dsimp only; split <;> rfl
    | waveletOctree x => dsimp only; split <;> rfl
    | hashedChunked x => dsimp only; split <;> rfl
    | volumetricOctree x => dsimp only; split <;> rfl
  have hl0 : s0.layers = s.layers := by subst hs0; rfl
  have hq0 : s0.queue = s.queue := by subst hs0; rfl
  have hm0 : s0.map = s.map := by subst hs0; exact hm.symm
  have hvis : s0.visible = s.visible := by subst hs0; exact hv.symm
  have hver : s0.version = s.version := by subst hs0; rfl
  have ht0 : 0 ≤ s0.termHeight := by subst hs0; exact le_max_left _ _
  have key : ∀ leaves, ((drawVoxels s0.draws s0.colour m.treeHeight m.minCellWidth ((m.treeHeight : Int) + 1) leaves
      ((s0.layers.getBlock fun _ => 0).getD [])).bind fun layers =>
        .done { s0 with layers := s0.layers.put (fun _ => 0) layers, lastUpdate := now }) = .done s' →
      s'.Base H w ∧ s'.map = s.map ∧ s'.visible = s.visible ∧ s'.lastUpdate = now := by
    intro leaves h
    cases hd : drawVoxels s0.draws s0.colour m.treeHeight m.minCellWidth ((m.treeHeight : Int) + 1) leaves ((s0.layers.getBlock fun _ => 0).getD []) with
    | abort => rw [hd] at h; cases h
    | undefined => rw [hd] at h; cases h
    | done layers =>
      rw [hd] at h
      simp only [Outcome.bind] at h
      cases h
      have hfit : WidthsFit m.treeHeight m.minCellWidth ((s0.layers.getBlock fun _ => 0).getD []) := by
        rw [hl0, hH, hw]
        cases e : s.layers.getBlock fun _ => 0 with
        | none => intro d l hl; cases hl
        | some ls => exact hb.widths _ ls e
      have hd' : drawVoxels s0.draws s0.colour m.treeHeight m.minCellWidth ((m.treeHeight : Int) + 1 - 0) leaves ((s0.layers.getBlock fun _ => 0).getD []) =
          .done layers := by rw [Int.sub_zero]; exact hd
      obtain ⟨_, h2, _⟩ := drawVoxels_spec hfit hd'
      refine ⟨⟨fun k ls hk => ?_, ?_, ?_, ht0, ?_, ?_, fun m' hm' => ?_⟩, hm0, hvis, rfl⟩
      · have hk : (s0.layers.put (fun _ => 0) layers).getBlock k = some ls := hk
        rw [SpatialHash.getBlock_put] at hk
        split at hk
        · cases hk; rw [h2, hH, hw]; exact picture_fit _ _ _ _ _ _
        · rw [hl0] at hk; exact hb.widths k ls hk
      · exact SpatialHash.keys_put _ _ _ (hl0 ▸ hb.layerKeys)
      · show s0.queue.keys.Nodup
        rw [hq0]; exact hb.queueKeys
      · show ∀ k h, s0.queue.getBlock k = some h → 0 ≤ h
        rw [hq0]; exact hb.heights
      · show ∀ v, s0.selector.accelerator = some v → v ≤ s0.version
        rw [hacc, hver]; exact hb.acc
      · have hm' : s0.map = some (.hashedWavelet m') := hm'
        rw [hm0, hm] at hm'
        exact absurd (Option.some.inj hm') (hno m')
  cases m with
  | hashedWavelet x => exact absurd rfl (hno x)
  | hashedBlocks x =>
    split at h
    · cases h
    · next leaves _ => exact key leaves h
  | waveletOctree x =>
    split at h
    · cases h
    · next leaves _ => exact key leaves h
  | hashedChunked x =>
    split at h
    · cases h
    · next leaves _ => exact key leaves h
  | volumetricOctree x =>
    split at h
    · cases h
    · next leaves _ => exact key leaves h

end VoxelDisplay

/-! ## Map messages -/

namespace HashedWaveletOctree

theorem applyBlocks_stamp (now : ℚ) : ∀ (l : List BlockMsg) (m m' : HashedWaveletOctree), applyBlocks now l m = .done m' →
    m'.config = m.config ∧ ∀ k b, m'.blocks.getBlock k = some b → b.lastUpdated = now ∨ m.blocks.getBlock k = some b := by
  intro l
  induction l with
  | nil =>
    intro m m' h
    simp only [applyBlocks, Outcome.done.injEq] at h
    subst h
    exact ⟨rfl, fun _ _ h => .inr h⟩
  | cons e es ih =>
    intro m m' h
    simp only [applyBlocks] at h
    split at h
    · split at h
      · cases h
      · next b hb =>
        split at h
        · cases h
        · next t ht =>
          obtain ⟨h1, h2⟩ := ih _ _ h
          refine ⟨h1, fun k b' hk => ?_⟩
          have hlast : (if m.blocks.hasBlock e.offset then b.clear now else b).lastUpdated = now := by
            split
            · rfl
            · next hno =>
              have hnone : m.blocks.getBlock e.offset = none := by
                unfold SpatialHash.hasBlock at hno
                cases hx : m.blocks.getBlock e.offset with
                | none => rfl
                | some x => rw [hx] at hno; exact absurd rfl hno
              have hb : (m.blocks.getOrAllocateBlock e.offset
                  (WaveletBlock.create m.config.treeHeight m.config.minLogOdds m.config.maxLogOdds now)).getBlock e.offset = some b := hb
              rw [SpatialHash.getBlock_getOrAllocate, if_pos rfl, hnone] at hb
              cases hb; rfl
          rcases h2 k b' hk with g | g
          · exact .inl g
          · rw [SpatialHash.getBlock_modify] at g
            by_cases hke : k = e.offset
            · subst hke
              rw [hb] at g
              simp only [if_pos, Option.map_some, Option.some.injEq] at g
              subst g
              exact .inl hlast
            · simp only [if_neg hke] at g
              right
              have g : (m.blocks.getOrAllocateBlock e.offset
                  (WaveletBlock.create m.config.treeHeight m.config.minLogOdds m.config.maxLogOdds now)).getBlock k = some b' := g
              rw [SpatialHash.getBlock_getOrAllocate, if_neg hke] at g
              exact g
    · cases h

theorem getBlock_eraseIf (m : HashedWaveletOctree) (p : Index 3 → Bool) (k : Index 3) (b : WaveletBlock)
    (h : (m.eraseBlockIf p).blocks.getBlock k = some b) : m.blocks.getBlock k = some b := by
  have : (m.eraseBlockIf p).blocks = m.blocks.filter fun e => !p e.1 := by
    unfold eraseBlockIf SpatialHash.eraseBlockIf
    dsimp only
    rw [← List.filterMap_eq_filter]
    apply List.filterMap_congr
    intro e _
    cases hp : p e.1 <;> simp [Option.guard, hp]
  rw [this, SpatialHash.getBlock_filter m.blocks (fun k => !p k)] at h
  split at h
  · exact h
  · cases h

/-- Every block of the map after a message was updated by it or is a block of the old map. -/
theorem applyMsg_stamp {now : ℚ} {msg : HashedWaveletMsg} {old : Option HashedWaveletOctree} {m' : HashedWaveletOctree} (h : applyMsg now msg old = .done m')
    {k : Index 3} {b : WaveletBlock} (hk : m'.blocks.getBlock k = some b) :
    b.lastUpdated = now ∨ ∃ m, old = some m ∧ m.config.treeHeight = m'.config.treeHeight ∧ m.config.minCellWidth = m'.config.minCellWidth ∧
      m.blocks.getBlock k = some b := by
  unfold applyMsg at h
  have hnew : ∀ s : HashedWaveletOctree, (if (msgConfig msg).isValid then Outcome.done (create (msgConfig msg)) else .abort) = .done s →
      applyBlocks now msg.blocks s = .done m' → b.lastUpdated = now := by
    intro s hs ha
    split at hs
    · cases hs
      rcases (applyBlocks_stamp now _ _ _ ha).2 k b hk with g | g
      · exact g
      · cases g
    · cases hs
  cases old with
  | none =>
    simp only at h
    cases hs : (if (msgConfig msg).isValid then Outcome.done (create (msgConfig msg)) else .abort) with
    | abort => rw [hs] at h; cases h
    | undefined => rw [hs] at h; cases h
    | done s => rw [hs] at h; exact .inl (hnew s hs h)
  | some m =>
    simp only at h
    split at h
    · next hsame =>
      simp only [Outcome.bind] at h
      obtain ⟨h1, h2⟩ := applyBlocks_stamp now _ _ _ h
      rcases h2 k b hk with g | g
      · exact .inl g
      · right
        exact ⟨m, rfl, by rw [h1]; rfl, by rw [h1]; rfl, getBlock_eraseIf _ _ _ _ g⟩
    · cases hs : (if (msgConfig msg).isValid then Outcome.done (create (msgConfig msg)) else .abort) with
      | abort => rw [hs] at h; cases h
      | undefined => rw [hs] at h; cases h
      | done s => rw [hs] at h; exact .inl (hnew s hs h)

end HashedWaveletOctree

theorem rosMsgToMap_stamp {now : ℚ} {msg : MapMsg} {map : Option AnyMap} {r : Bool × Option AnyMap} (h : rosMsgToMap now msg map = .done r)
    {m' : HashedWaveletOctree} (hr : r.2 = some (.hashedWavelet m')) {k : Index 3} {b : WaveletBlock} (hk : m'.blocks.getBlock k = some b) :
    b.lastUpdated = now ∨ ∃ m, map = some (.hashedWavelet m) ∧ m.config.treeHeight = m'.config.treeHeight ∧
      m.config.minCellWidth = m'.config.minCellWidth ∧ m.blocks.getBlock k = some b := by
  unfold rosMsgToMap at h
  split at h
  · cases h; cases hr
  · split at h
    · next x _ _ =>
      cases hx : HashedBlocks.applyMsg x (AnyMap.asHashedBlocks map) with
      | abort => rw [hx] at h; cases h
      | undefined => rw [hx] at h; cases h
      | done y => rw [hx] at h; cases h; cases hr
    · next x _ _ _ =>
      cases hx : WaveletOctree.applyMsg x (AnyMap.asWaveletOctree map) with
      | abort => rw [hx] at h; cases h
      | undefined => rw [hx] at h; cases h
      | done y => rw [hx] at h; cases h; cases hr
    · next x _ _ _ _ =>
      cases hx : HashedWaveletOctree.applyMsg now x (AnyMap.asHashedWavelet map) with
      | abort => rw [hx] at h; cases h
      | undefined => rw [hx] at h; cases h
      | done y =>
        rw [hx] at h; cases h; cases hr
        rcases HashedWaveletOctree.applyMsg_stamp hx hk with g | ⟨m, g1, g2⟩
        · exact .inl g
        · right
          refine ⟨m, ?_, g2⟩
          unfold AnyMap.asHashedWavelet at g1
          split at g1
          · cases g1; rfl
          · cases g1
    · cases h; cases hr

namespace VoxelDisplay

/-! ### Events -/

/-- The time at which an event starts, for events that look at the clock. -/
def Event.time : Event → Option ℚ
  | .message _ now _ => some now
  | .load _ now => some now
  | .sourceMode now => some now
  | .setVisible _ now => some now
  | .setMode _ now => some now
  | .setThresholds _ _ _ _ now => some now
  | .setColour _ now => some now
  | _ => none

/-- What a frame calls for sorting returns the elements it is given in some order. -/
def Event.sorts : Event → Prop
  | .frame _ _ sort _ => ∀ l, (sort l).Perm l
  | _ => True

theorem updateMap_base {H : Nat} {w : ℚ} {redrawAll : Bool} {now : ℚ} {s s' : VoxelDisplay} (hu : s.Uniform H w) (hb : s.Base H w)
    (h : s.updateMap redrawAll now = .done s') : s'.Base H w ∧ s'.map = s.map ∧ s'.visible = s.visible ∧ (s'.lastUpdate = s.lastUpdate ∨ s'.lastUpdate = now) := by
  cases hv : s.visible with
  | false => have := updateMap_idle (.inl hv) h; subst this; exact ⟨hb, rfl, hv, .inl rfl⟩
  | true =>
    cases hm : s.map with
    | none => have := updateMap_idle (.inr hm) h; subst this; exact ⟨hb, hm, hv, .inl rfl⟩
    | some m =>
      by_cases hno : ∃ x, m = .hashedWavelet x
      · obtain ⟨x, rfl⟩ := hno
        have := updateMap_hashed hv hm h
        exact ⟨this.base hm hb, this.map.trans hm, this.visible.trans hv, .inr this.lastUpdate⟩
      · obtain ⟨h1, h2, h3, h4⟩ := Base.of_other hv hm (fun x hx => hno ⟨x, hx⟩) (hu _ hm).1 (hu _ hm).2 hb h
        exact ⟨h1, h2.trans hm, h3.trans hv, .inr h4⟩

/-- Other settings, and a map that was not there when the accelerator was made. -/
theorem Base.other_map {H : Nat} {w : ℚ} {s : VoxelDisplay} (hb : s.Base H w) (map : Option AnyMap) : (s.withMap map).Base H w := by
  refine ⟨hb.widths, hb.layerKeys, hb.queueKeys, hb.term, hb.heights, fun v hv => ?_, fun m _ hacc => ?_⟩
  · have := hb.acc v hv
    show v ≤ s.version + 1
    omega
  · have := hb.acc _ hacc
    have : s.version + 1 ≤ s.version := this
    omega

theorem Base.uncoupled {H : Nat} {w : ℚ} {s s' : VoxelDisplay} (hb : s.Base H w) (hl : s'.layers = s.layers ∨ s'.layers = []) (hq : s'.queue = s.queue)
    (ht : 0 ≤ s'.termHeight) (hver : s'.version = s.version) (hacc : s'.selector.accelerator = s.selector.accelerator)
    (hs : s'.map = s.map) : s'.Base H w := by
  refine ⟨fun k ls hk => ?_, ?_, by rw [hq]; exact hb.queueKeys, ht, by rw [hq]; exact hb.heights, by rw [hacc, hver]; exact hb.acc, fun m hm ha => ?_⟩
  · rcases hl with hl | hl
    · rw [hl] at hk; exact hb.widths k ls hk
    · rw [hl] at hk; cases hk
  · rcases hl with hl | hl
    · rw [hl]; exact hb.layerKeys
    · rw [hl]; exact List.nodup_nil
  · rw [hs] at hm
    rw [hacc, hver] at ha
    obtain ⟨g1, g2⟩ := hb.synced m hm ha
    refine ⟨fun k hk => ?_, by rw [hq]; exact g2⟩
    rcases hl with hl | hl
    · rw [hl] at hk; exact g1 k hk
    · rw [hl] at hk; cases hk

theorem updateMap_same {redrawAll : Bool} {now : ℚ} {s s' : VoxelDisplay} (h : s.updateMap redrawAll now = .done s') :
    s'.map = s.map ∧ s'.visible = s.visible ∧ s'.colour = s.colour ∧ s'.version = s.version ∧ (s'.lastUpdate = s.lastUpdate ∨ s'.lastUpdate = now) := by
  cases hv : s.visible with
  | false => have := updateMap_idle (.inl hv) h; subst this; exact ⟨rfl, hv, rfl, rfl, .inl rfl⟩
  | true =>
    cases hm : s.map with
    | none => have := updateMap_idle (.inr hm) h; subst this; exact ⟨hm, hv, rfl, rfl, .inl rfl⟩
    | some m =>
      by_cases hno : ∃ x, m = .hashedWavelet x
      · obtain ⟨x, rfl⟩ := hno
        have := updateMap_hashed hv hm h
        exact ⟨this.map.trans hm, this.visible.trans hv, this.colour, this.version, .inr this.lastUpdate⟩
      · unfold updateMap at h
        rw [hv, hm] at h
        simp only [Bool.not_true, Bool.false_eq_true, if_false] at h
        generalize hs0 : ({ s with map := some m, visible := true, selector := s.selector.setMap m s.version } : VoxelDisplay).limitTermHeight m.treeHeight = s0 at h
        have f1 : s0.map = some m := by subst hs0; rfl
        have f2 : s0.visible = true := by subst hs0; rfl
        have f3 : s0.colour = s.colour := by subst hs0; rfl
        have f4 : s0.version = s.version := by subst hs0; rfl
        have key : ∀ o : Outcome (List CellLayer),
            (o.bind fun layers => Outcome.done { s0 with layers := s0.layers.put (fun _ => 0) layers, lastUpdate := now }) = .done s' →
            s'.map = some m ∧ s'.visible = true ∧ s'.colour = s.colour ∧ s'.version = s.version ∧ (s'.lastUpdate = s.lastUpdate ∨ s'.lastUpdate = now) := by
          intro o h
          cases o with
          | abort => cases h
          | undefined => cases h
          | done x => cases h; exact ⟨f1, f2, f3, f4, .inr rfl⟩
        split at h
        · exact absurd ⟨_, rfl⟩ hno
        · split at h
          · cases h
          · exact key _ h

/-- Loading a file that fails does not set the map to anything new. -/
theorem load_cases {file : IStream} {now : ℚ} {s s' : VoxelDisplay} (h : s.step (.load file now) = .done s') :
    (∃ m, (s.withMap (some m)).updateMap true now = .done s') ∨ s' = s.withMap none ∨ s' = s := by
  simp only [step] at h
  have key : ∀ {α : Type} (wrap : α → AnyMap) (r : LoadResult α),
      (match some (StreamToMap.ofLoad s.map wrap r) with
        | none => Outcome.undefined
        | some .abort => .abort
        | some (.returned true map) => (s.withMap map).updateMap true now
        | some (.returned false map) => .done (if map.isNone then s.withMap none else s)) = .done s' →
      (∃ m, (s.withMap (some m)).updateMap true now = .done s') ∨ s' = s.withMap none ∨ s' = s := by
    intro α wrap r h
    cases r with
    | abort => cases h
    | failed =>
      simp only [StreamToMap.ofLoad, Outcome.done.injEq] at h
      subst h
      right
      split
      · exact .inl rfl
      · exact .inr rfl
    | ok m _ => exact .inl ⟨wrap m, h⟩
  unfold streamToMap at h
  by_cases hg : file.good = true
  · rw [if_pos hg] at h
    simp only at h
    by_cases h1 : (peekFormat file).1 = kHashedBlocks
    · rw [if_pos h1] at h
      exact key _ _ h
    · rw [if_neg h1] at h
      by_cases h2 : (peekFormat file).1 = kWaveletOctree
      · rw [if_pos h2] at h
        cases hr : WaveletOctree.ofStream (peekFormat file).2 with
        | none => rw [hr] at h; cases h
        | some r => rw [hr] at h; exact key _ _ h
      · rw [if_neg h2] at h
        by_cases h3 : (peekFormat file).1 = kHashedWaveletOctree
        · rw [if_pos h3] at h
          cases hr : HashedWaveletOctree.ofStream now (peekFormat file).2 with
          | none => rw [hr] at h; cases h
          | some r => rw [hr] at h; exact key _ _ h
        · rw [if_neg h3] at h
          cases h
          exact .inr (.inl rfl)
  · rw [if_neg hg] at h
    simp only [Outcome.done.injEq] at h
    subst h
    right
    split
    · exact .inl rfl
    · exact .inr rfl

/-- The bookkeeping is kept by every event. -/
theorem step_base {H : Nat} {w : ℚ} {e : Event} {s s' : VoxelDisplay} (hsort : e.sorts) (hu : s.Uniform H w) (hu' : s'.Uniform H w) (hb : s.Base H w)
    (h : s.step e = .done s') : s'.Base H w := by
  have upd : ∀ {s1 : VoxelDisplay} {r : Bool} {now : ℚ}, s1.updateMap r now = .done s' → s1.Base H w → s'.Base H w := by
    intro s1 r now h1 hb1
    refine (updateMap_base ?_ hb1 h1).1
    unfold Uniform
    rw [← (updateMap_same h1).1]
    exact hu'
  cases e with
  | message msg now transform =>
    simp only [step] at h
    cases hr : rosMsgToMap now msg s.map with
    | abort => rw [hr] at h; cases h
    | undefined => rw [hr] at h; cases h
    | done r =>
      rw [hr] at h
      simp only [Outcome.bind] at h
      split at h
      · exact upd h (hb.other_map _)
      · cases h; exact hb.other_map _
  | load file now =>
    rcases load_cases h with ⟨m, h⟩ | rfl | rfl
    · exact upd h (hb.other_map _)
    · exact hb.other_map _
    · exact hb
  | sourceMode now =>
    simp only [step] at h
    exact upd h (hb.other_map _)
  | reset =>
    simp only [step, Outcome.done.injEq] at h
    subst h
    exact hb.uncoupled (.inr rfl) rfl hb.term rfl rfl rfl
  | setVisible visible now =>
    simp only [step] at h
    split at h
    · exact upd h (hb.uncoupled (.inl rfl) rfl hb.term rfl rfl rfl)
    · cases h; exact hb.uncoupled (.inr rfl) rfl hb.term rfl rfl rfl
  | setMode mode now =>
    simp only [step] at h
    split at h
    · exact upd h (hb.uncoupled (.inl rfl) rfl hb.term rfl rfl rfl)
    · cases h; exact hb.uncoupled (.inl rfl) rfl hb.term rfl rfl rfl
  | setThresholds a b c d now =>
    simp only [step] at h
    exact upd h (hb.uncoupled (.inl rfl) rfl hb.term rfl rfl rfl)
  | setColour colour now =>
    simp only [step] at h
    split at h
    · exact upd h (hb.uncoupled (.inl rfl) rfl hb.term rfl rfl rfl)
    · cases h; exact hb.uncoupled (.inl rfl) rfl hb.term rfl rfl rfl
  | setTermHeight height =>
    simp only [step, Outcome.done.injEq] at h
    subst h
    exact hb.uncoupled (.inl rfl) rfl (le_max_left _ _) rfl rfl rfl
  | frame camera moved sort cut =>
    by_cases hi : s.visible = false ∨ ∀ m, s.map ≠ some (.hashedWavelet m)
    · rcases prerender_idle hi h with rfl | rfl
      · exact hb
      · exact hb.uncoupled (.inl rfl) rfl hb.term rfl rfl rfl
    · simp only [not_or, Bool.not_eq_false, not_forall, not_not] at hi
      obtain ⟨hv, m, hm⟩ := hi
      exact (prerender_spec hsort hm hv hu hb h).2.2.1

/-- No event makes the time of the last update later than the event. -/
theorem step_time {e : Event} {s s' : VoxelDisplay} {H : Nat} {w : ℚ} (hsort : e.sorts) (hu : s.Uniform H w) (hb : s.Base H w) (h : s.step e = .done s') :
    s'.lastUpdate = s.lastUpdate ∨ e.time = some s'.lastUpdate := by
  have upd : ∀ {s1 : VoxelDisplay} {r : Bool} {now : ℚ}, s1.updateMap r now = .done s' → s1.lastUpdate = s.lastUpdate →
      s'.lastUpdate = s.lastUpdate ∨ some now = some s'.lastUpdate := by
    intro s1 r now h1 hl
    rcases (updateMap_same h1).2.2.2.2 with g | g
    · exact .inl (g.trans hl)
    · exact .inr (by rw [g])
  cases e with
  | message msg now transform =>
    simp only [step] at h
    cases hr : rosMsgToMap now msg s.map with
    | abort => rw [hr] at h; cases h
    | undefined => rw [hr] at h; cases h
    | done r =>
      rw [hr] at h
      simp only [Outcome.bind] at h
      split at h
      · exact upd h rfl
      · cases h; exact .inl rfl
  | load file now =>
    rcases load_cases h with ⟨m, h⟩ | rfl | rfl
    · exact upd h rfl
    · exact .inl rfl
    · exact .inl rfl
  | sourceMode now =>
    simp only [step] at h
    exact upd h rfl
  | reset =>
    simp only [step, Outcome.done.injEq] at h
    subst h
    exact .inl rfl
  | setVisible visible now =>
    simp only [step] at h
    split at h
    · exact upd h rfl
    · cases h; exact .inl rfl
  | setMode mode now =>
    simp only [step] at h
    split at h
    · exact upd h rfl
    · cases h; exact .inl rfl
  | setThresholds a b c d now =>
    simp only [step] at h
    exact upd h rfl
  | setColour colour now =>
    simp only [step] at h
    split at h
    · exact upd h rfl
    · cases h; exact .inl rfl
  | setTermHeight height =>
    simp only [step, Outcome.done.injEq] at h
    subst h
    exact .inl rfl
  | frame camera moved sort cut =>
    by_cases hi : s.visible = false ∨ ∀ m, s.map ≠ some (.hashedWavelet m)
    · rcases prerender_idle hi h with rfl | rfl <;> exact .inl rfl
    · simp only [not_or, Bool.not_eq_false, not_forall, not_not] at hi
      obtain ⟨hv, m, hm⟩ := hi
      exact .inl (prerender_spec hsort hm hv hu hb h).1.lastUpdate

theorem Drawn.transfer {s s' : VoxelDisplay} {m m' : HashedWaveletOctree} {k : Index 3} {b : WaveletBlock} {h : Int} (hd : s.Drawn m k b h)
    (hdr : s'.draws = s.draws) (hc : s'.colour = s.colour) (hl : s'.layers.getBlock k = s.layers.getBlock k)
    (hH : m.config.treeHeight = m'.config.treeHeight) (hw : m.config.minCellWidth = m'.config.minCellWidth) : s'.Drawn m' k b h := by
  unfold Drawn at hd ⊢
  rw [hdr, hc, hl, ← hH, ← hw]
  exact hd

theorem draws_band_congr {s s' : VoxelDisplay} (h : s.selector.mode = .band) (x : Option Nat) (hs : s'.selector = { s.selector with accelerator := x }) :
    s'.draws = s.draws := by
  rw [draws_band s h, draws_band s' (by rw [hs]; exact h), hs]
  rfl

/-- In the mode that selects a band of values, every block is shown as it is in the map, or queued, or will be queued. -/
def BandFresh (s : VoxelDisplay) : Prop := ∀ m, s.map = some (.hashedWavelet m) → s.visible = true → s.selector.mode = .band → s.Fresh m

/-- The accelerator refers to the map. -/
def Current (s : VoxelDisplay) : Prop := ∀ m, s.map = some (.hashedWavelet m) → s.visible = true → s.selector.accelerator = some s.version

theorem updateMap_current {r : Bool} {now : ℚ} {s s' : VoxelDisplay} (h : s.updateMap r now = .done s') : s'.Current := by
  intro m hm hv
  rw [(updateMap_same h).1] at hm
  rw [(updateMap_same h).2.1] at hv
  have := updateMap_hashed hv hm h
  rw [this.selector, this.version]

theorem updateMap_fresh {now : ℚ} {s s' : VoxelDisplay} (h : s.updateMap true now = .done s') :
    ∀ m, s'.map = some (.hashedWavelet m) → s'.visible = true → s'.Fresh m := by
  intro m hm hv k b hk
  rw [(updateMap_same h).1] at hm
  rw [(updateMap_same h).2.1] at hv
  exact .inl ((updateMap_hashed hv hm h).queued k b hk (.inl rfl)).1

/-- Events other than messages whose frame is unknown. -/
def Event.placed : Event → Prop
  | .message _ _ transform => transform = true
  | _ => True

theorem step_current {H : Nat} {w : ℚ} {e : Event} {s s' : VoxelDisplay} (hsort : e.sorts) (hplaced : e.placed) (hu : s.Uniform H w) (hb : s.Base H w)
    (hc : s.Current) (h : s.step e = .done s') : s'.Current := by
  cases e with
  | message msg now transform =>
    simp only [step] at h
    cases hr : rosMsgToMap now msg s.map with
    | abort => rw [hr] at h; cases h
    | undefined => rw [hr] at h; cases h
    | done r =>
      rw [hr] at h
      simp only [Outcome.bind] at h
      have hplaced : transform = true := hplaced
      rw [if_pos hplaced] at h
      exact updateMap_current h
  | load file now =>
    rcases load_cases h with ⟨m, h⟩ | rfl | rfl
    · exact updateMap_current h
    · intro m hm; cases hm
    · exact hc
  | sourceMode now => exact updateMap_current h
  | reset =>
    simp only [step, Outcome.done.injEq] at h
    subst h
    exact hc
  | setVisible visible now =>
    simp only [step] at h
    split at h
    · exact updateMap_current h
    · next hno => cases h; intro m _ hv; exact absurd hv hno
  | setMode mode now =>
    simp only [step] at h
    split at h
    · exact updateMap_current h
    · cases h; exact hc
  | setThresholds a b c d now => exact updateMap_current h
  | setColour colour now =>
    simp only [step] at h
    split at h
    · exact updateMap_current h
    · cases h; exact hc
  | setTermHeight height =>
    simp only [step, Outcome.done.injEq] at h
    subst h
    exact hc
  | frame camera moved sort cut =>
    by_cases hi : s.visible = false ∨ ∀ m, s.map ≠ some (.hashedWavelet m)
    · rcases prerender_idle hi h with rfl | rfl <;> exact hc
    · simp only [not_or, Bool.not_eq_false, not_forall, not_not] at hi
      obtain ⟨hv, m, hm⟩ := hi
      have hk := (prerender_spec hsort hm hv hu hb h).1
      intro m' hm' hv'
      rw [hk.selector, hk.version]
      exact hc m' (hk.map ▸ hm') (hk.visible ▸ hv')

theorem step_fresh {H : Nat} {w : ℚ} {e : Event} {s s' : VoxelDisplay} (hsort : e.sorts) (hreset : e ≠ .reset) (htime : ∀ t, e.time = some t → s.lastUpdate < t)
    (hu : s.Uniform H w) (hb : s.Base H w) (hf : s.BandFresh) (h : s.step e = .done s') : s'.BandFresh := by
  cases e with
  | message msg now transform =>
    simp only [step] at h
    have ht : s.lastUpdate < now := htime now rfl
    have hstale : ∀ map, (s.withMap map).selector.accelerator ≠ some (s.withMap map).version := by
      intro map ha
      have := hb.acc _ ha
      have : s.version + 1 ≤ s.version := this
      omega
    cases hr : rosMsgToMap now msg s.map with
    | abort => rw [hr] at h; cases h
    | undefined => rw [hr] at h; cases h
    | done r =>
      rw [hr] at h
      simp only [Outcome.bind] at h
      split at h
      · intro m' hm' hv' hmode k b hk
        have hm1 : (s.withMap r.2).map = some (.hashedWavelet m') := by rw [← (updateMap_same h).1]; exact hm'
        have hv1 : (s.withMap r.2).visible = true := by rw [← (updateMap_same h).2.1]; exact hv'
        have hup := updateMap_hashed hv1 hm1 h
        have hhas : m'.blocks.hasBlock k = true := by unfold SpatialHash.hasBlock; rw [hk]; rfl
        have hmode0 : s.selector.mode = .band := by rw [hup.selector] at hmode; exact hmode
        rcases rosMsgToMap_stamp hr hm1 hk with g | ⟨m, g1, g2, g3, g4⟩
        · exact .inl (hup.queued k b hk (.inr (by rw [g]; exact ht))).1
        · rcases hf m g1 hv1 hmode0 k b g4 with q | q | ⟨x, q⟩
          · exact .inl (hup.kept k hhas q)
          · exact .inl (hup.queued k b hk (.inr q.1)).1
          · right; right
            refine ⟨x, q.transfer (draws_band_congr hmode0 _ hup.selector) hup.colour ?_ g2 g3⟩
            rw [hup.layers, if_pos hhas]; rfl
      · cases h
        intro m' hm' hv' hmode k b hk
        rcases rosMsgToMap_stamp hr hm' hk with g | ⟨m, g1, g2, g3, g4⟩
        · exact .inr (.inl ⟨by rw [g]; exact ht, hstale r.2⟩)
        · rcases hf m g1 hv' hmode k b g4 with q | q | ⟨x, q⟩
          · exact .inl q
          · exact .inr (.inl ⟨q.1, hstale r.2⟩)
          · right; right
            exact ⟨x, q.transfer (draws_band_congr hmode s.selector.accelerator rfl) rfl rfl g2 g3⟩
  | load file now =>
    rcases load_cases h with ⟨m, h⟩ | rfl | rfl
    · exact fun m hm hv _ => updateMap_fresh h m hm hv
    · intro m hm; cases hm
    · exact hf
  | sourceMode now => exact fun m hm hv _ => updateMap_fresh h m hm hv
  | reset => exact absurd rfl hreset
  | setVisible visible now =>
    simp only [step] at h
    split at h
    · exact fun m hm hv _ => updateMap_fresh h m hm hv
    · next hno => cases h; intro m _ hv; exact absurd hv hno
  | setMode mode now =>
    simp only [step] at h
    split at h
    · exact fun m hm hv _ => updateMap_fresh h m hm hv
    · next hno =>
      cases h
      simp only [decide_eq_true_eq, ne_eq, not_not] at hno
      subst hno
      exact hf
  | setThresholds a b c d now => exact fun m hm hv _ => updateMap_fresh h m hm hv
  | setColour colour now =>
    simp only [step] at h
    split at h
    · exact fun m hm hv _ => updateMap_fresh h m hm hv
    · next hno =>
      cases h
      simp only [decide_eq_true_eq, ne_eq, not_not] at hno
      subst hno
      exact hf
  | setTermHeight height =>
    simp only [step, Outcome.done.injEq] at h
    subst h
    exact hf
  | frame camera moved sort cut =>
    by_cases hi : s.visible = false ∨ ∀ m, s.map ≠ some (.hashedWavelet m)
    · rcases prerender_idle hi h with rfl | rfl <;> exact hf
    · simp only [not_or, Bool.not_eq_false, not_forall, not_not] at hi
      obtain ⟨hv, m, hm⟩ := hi
      have hk := prerender_spec hsort hm hv hu hb h
      intro m' hm' _ hmode
      rw [hk.1.map, hm] at hm'
      cases hm'
      rw [hk.1.selector] at hmode
      exact hk.2.2.2.1 (hf m hm hv hmode)

/-! ### Histories -/

/-- The times of the events increase, from `t`. -/
def Increasing : ℚ → List Event → Prop
  | _, [] => True
  | t, e :: es =>
    match e.time with
    | none => Increasing t es
    | some u => t < u ∧ Increasing u es

/-- All maps that the display gets during the history have tree height `H` and cells of width `w`. -/
def OneResolution (H : Nat) (w : ℚ) (es : List Event) (s : VoxelDisplay) : Prop :=
  ∀ p, p <+: es → ∀ s', run p s = .done s' → s'.Uniform H w

theorem OneResolution.head {H : Nat} {w : ℚ} {es : List Event} {s : VoxelDisplay} (h : OneResolution H w es s) : s.Uniform H w :=
  h [] (List.nil_prefix) s rfl

theorem OneResolution.tail {H : Nat} {w : ℚ} {e : Event} {es : List Event} {s s' : VoxelDisplay} (h : OneResolution H w (e :: es) s) (hs : s.step e = .done s') :
    OneResolution H w es s' := by
  intro p hp s'' hr
  refine h (e :: p) ((List.prefix_cons_inj e).2 hp) s'' ?_
  simp only [run, hs, Outcome.bind]
  exact hr

theorem run_cons {e : Event} {es : List Event} {s s' : VoxelDisplay} (h : run (e :: es) s = .done s') : ∃ s1, s.step e = .done s1 ∧ run es s1 = .done s' := by
  simp only [run] at h
  cases hs : s.step e with
  | abort => rw [hs] at h; cases h
  | undefined => rw [hs] at h; cases h
  | done s1 => rw [hs] at h; exact ⟨s1, rfl, h⟩

theorem run_append {es fs : List Event} : ∀ {s s' : VoxelDisplay}, run (es ++ fs) s = .done s' → ∃ s1, run es s = .done s1 ∧ run fs s1 = .done s' := by
  induction es with
  | nil => intro s s' h; exact ⟨s, rfl, h⟩
  | cons e es ih =>
    intro s s' h
    obtain ⟨s1, h1, h2⟩ := run_cons h
    obtain ⟨s2, h3, h4⟩ := ih h2
    refine ⟨s2, ?_, h4⟩
    simp only [run, h1, Outcome.bind]
    exact h3

theorem run_base {H : Nat} {w : ℚ} : ∀ {es : List Event} {s s' : VoxelDisplay}, (∀ e ∈ es, e.sorts) → OneResolution H w es s → s.Base H w →
    run es s = .done s' → s'.Base H w := by
  intro es
  induction es with
  | nil => intro s s' _ _ hb h; cases h; exact hb
  | cons e es ih =>
    intro s s' hs hr hb h
    obtain ⟨s1, h1, h2⟩ := run_cons h
    have ht := hr.tail h1
    exact ih (fun e he => hs e (List.mem_cons_of_mem _ he)) ht (step_base (hs e List.mem_cons_self) hr.head ht.head hb h1) h2

/-- Whether the frame of the last message was known. -/
def lastPlaced (es : List Event) : Bool := es.foldl (fun ok e => match e with | .message _ _ transform => transform | _ => ok) true

theorem run_current {H : Nat} {w : ℚ} : ∀ {es : List Event} {s s' : VoxelDisplay} (ok : Bool), (∀ e ∈ es, e.sorts) → OneResolution H w es s →
    s.Base H w → (ok = true → s.Current) → run es s = .done s' →
    es.foldl (fun ok e => match e with | .message _ _ transform => transform | _ => ok) ok = true → s'.Current := by
  intro es
  induction es with
  | nil => intro s s' ok _ _ _ hc h hok; cases h; exact hc hok
  | cons e es ih =>
    intro s s' ok hs hr hb hc h hok
    obtain ⟨s1, h1, h2⟩ := run_cons h
    have ht := hr.tail h1
    have hse := hs e List.mem_cons_self
    rw [List.foldl_cons] at hok
    refine ih _ (fun e he => hs e (List.mem_cons_of_mem _ he)) ht (step_base hse hr.head ht.head hb h1) (fun hok1 => ?_) h2 hok
    cases e with
    | message msg now transform =>
      have hok1 : transform = true := hok1
      subst hok1
      simp only [step] at h1
      cases hr : rosMsgToMap now msg s.map with
      | abort => rw [hr] at h1; cases h1
      | undefined => rw [hr] at h1; cases h1
      | done r =>
        rw [hr] at h1
        simp only [Outcome.bind, if_true] at h1
        exact updateMap_current h1
    | _ => exact step_current hse trivial hr.head hb (hc hok1) h1

theorem run_fresh {H : Nat} {w : ℚ} : ∀ {es : List Event} {s s' : VoxelDisplay} {t : ℚ}, (∀ e ∈ es, e.sorts) → (∀ e ∈ es, e ≠ .reset) → Increasing t es →
    s.lastUpdate ≤ t → OneResolution H w es s → s.Base H w → s.BandFresh → run es s = .done s' → s'.BandFresh := by
  intro es
  induction es with
  | nil => intro s s' t _ _ _ _ _ _ hf h; cases h; exact hf
  | cons e es ih =>
    intro s s' t hs hn hi hl hr hb hf h
    obtain ⟨s1, h1, h2⟩ := run_cons h
    have ht := hr.tail h1
    have hse := hs e List.mem_cons_self
    have hb1 := step_base hse hr.head ht.head hb h1
    have htime : ∀ u, e.time = some u → s.lastUpdate < u := by
      intro u hu
      simp only [Increasing, hu] at hi
      exact lt_of_le_of_lt hl hi.1
    have hf1 := step_fresh hse (hn e List.mem_cons_self) htime hr.head hb hf h1
    have hs' : ∀ e ∈ es, e.sorts := fun e he => hs e (List.mem_cons_of_mem _ he)
    have hn' : ∀ e ∈ es, e ≠ .reset := fun e he => hn e (List.mem_cons_of_mem _ he)
    rcases step_time hse hr.head hb h1 with g | g
    · cases hu : e.time with
      | none =>
        simp only [Increasing, hu] at hi
        exact ih hs' hn' hi (by rw [g]; exact hl) ht hb1 hf1 h2
      | some u =>
        simp only [Increasing, hu] at hi
        exact ih hs' hn' hi.2 (by rw [g]; linarith [hi.1]) ht hb1 hf1 h2
    · simp only [Increasing, g] at hi
      exact ih hs' hn' hi.2 (le_refl _) ht hb1 hf1 h2

theorem base_init (H : Nat) (w : ℚ) : Base H w {} :=
  ⟨(fun k ls h => by cases h), List.nodup_nil, List.nodup_nil, le_refl _, (fun k h hk => by cases hk), (fun v h => by cases h), (fun m h => by cases h)⟩

/-- Frames keep the state fresh in every mode. -/
theorem frames_fresh {H : Nat} {w : ℚ} {m : HashedWaveletOctree} : ∀ {es : List Event} {s s' : VoxelDisplay}, (∀ e ∈ es, e.sorts) →
    (∀ e ∈ es, ∃ camera moved sort cut, e = .frame camera moved sort cut) → s.map = some (.hashedWavelet m) → s.visible = true → s.Uniform H w → s.Base H w →
    s.Fresh m → run es s = .done s' → Kept s s' ∧ s'.Base H w ∧ s'.Fresh m := by
  intro es
  induction es with
  | nil => intro s s' _ _ _ _ _ hb hf h; cases h; exact ⟨.refl _, hb, hf⟩
  | cons e es ih =>
    intro s s' hs hfr hm hv hu hb hf h
    obtain ⟨s1, h1, h2⟩ := run_cons h
    obtain ⟨camera, moved, sort, cut, rfl⟩ := hfr e List.mem_cons_self
    obtain ⟨g1, _, g3, g4, _⟩ := prerender_spec (hs _ List.mem_cons_self) hm hv hu hb h1
    obtain ⟨i1, i2, i3⟩ := ih (fun e he => hs e (List.mem_cons_of_mem _ he)) (fun e he => hfr e (List.mem_cons_of_mem _ he)) (by rw [g1.map]; exact hm)
      (by rw [g1.visible]; exact hv) (by unfold Uniform; rw [g1.map]; exact hu) g3 (g4 hf) h2
    exact ⟨g1.trans i1, i2, i3⟩

end VoxelDisplay
end Wavemap
