import Verif.Props.SliceDisplay
import Verif.Props.MapMsg
/-!
# C74 The slice display: histories
-/
namespace Wavemap
open NdtreeIndex NTree Haar

/-! ## Maps received from a server are well-formed -/

theorem WTree.DepthLe.dropSat {h : Nat} {t : WTree} (ht : WTree.DepthLe h t) (lo hi s : ℚ) : WTree.DepthLe h (WTree.dropSat lo hi t s) := by
  induction h generalizing t s with
  | zero => have : t = .nil := ht; subst this; rfl
  | succ h ih =>
    intro c
    rw [WTree.dropSat_child]
    split
    · exact WTree.DepthLe.nil _
    · exact ih (ht c) _

theorem WTree.DepthLe.norm {h : Nat} {t : WTree} (ht : WTree.DepthLe h t) : WTree.DepthLe h t.norm := by
  induction h generalizing t with
  | zero => have : t = .nil := ht; subst this; rfl
  | succ h ih =>
    intro c
    rw [WTree.norm_child]
    exact ih (ht c)

namespace HashedWaveletOctree

/-- The blocks have the limits of the map. -/
def Limits (m : HashedWaveletOctree) : Prop :=
  ∀ k b, m.blocks.getBlock k = some b → b.minLogOdds = m.config.minLogOdds ∧ b.maxLogOdds = m.config.maxLogOdds

theorem Limits.applyBlocks (now : ℚ) : ∀ (l : List BlockMsg) (m m' : HashedWaveletOctree), m.Limits → applyBlocks now l m = .done m' → m'.Limits
  | [], m, m', h, e => by cases e; exact h
  | x :: l, m, m', h, e => by
    unfold HashedWaveletOctree.applyBlocks at e
    split at e
    · dsimp only at e
      split at e
      · cases e
      · next b hb =>
        split at e
        · cases e
        · next t _ =>
          refine Limits.applyBlocks now l _ m' (fun k b' hk => ?_) e
          have hb0 : b.minLogOdds = m.config.minLogOdds ∧ b.maxLogOdds = m.config.maxLogOdds := by
            simp only [HashedWaveletOctree.getOrAllocateBlock, SpatialHash.getBlock_getOrAllocate, if_true] at hb
            cases e1 : m.blocks.getBlock x.offset with
            | none => rw [e1] at hb; cases hb; exact ⟨rfl, rfl⟩
            | some b1 => rw [e1] at hb; cases hb; exact h _ _ e1
          have hcfg : (m.getOrAllocateBlock x.offset now).config = m.config := rfl
          dsimp only at hk ⊢
          rw [hcfg]
          rw [SpatialHash.getBlock_modify] at hk
          split at hk
          · rw [Option.map_eq_some_iff] at hk
            obtain ⟨_, _, rfl⟩ := hk
            dsimp only
            split
            · exact hb0
            · exact hb0
          · next hne =>
            simp only [HashedWaveletOctree.getOrAllocateBlock, SpatialHash.getBlock_getOrAllocate, if_neg hne] at hk
            exact h _ _ hk
    · cases e

theorem Limits.applyMsg {now : ℚ} {msg : HashedWaveletMsg} {old : Option HashedWaveletOctree} {R : HashedWaveletOctree}
    (h : ∀ o, old = some o → o.Limits ∧ o.blocks.keys.Nodup) (e : applyMsg now msg old = .done R) : R.Limits := by
  unfold HashedWaveletOctree.applyMsg at e
  dsimp only at e
  have hnew : ∀ S, (if (msgConfig msg).isValid then Outcome.done (create (msgConfig msg)) else .abort) = .done S → S.Limits := by
    intro S hS
    split at hS
    · cases hS; intro k b hk; cases hk
    · cases hS
  cases old with
  | none =>
    dsimp only at e
    cases e1 : (if (msgConfig msg).isValid then Outcome.done (create (msgConfig msg)) else .abort) with
    | abort => rw [e1] at e; cases e
    | undefined => rw [e1] at e; cases e
    | done S => rw [e1] at e; exact Limits.applyBlocks now _ S R (hnew S e1) e
  | some o =>
    dsimp only at e
    by_cases hs : sameConfig o.config (msgConfig msg) = true
    · rw [if_pos hs] at e
      refine Limits.applyBlocks now _ _ R (fun k b hk => ?_) e
      unfold HashedWaveletOctree.eraseBlockIf at hk
      dsimp only at hk
      rw [SpatialHash.getBlock_eraseBlockIf _ (h o rfl).2, Option.bind_eq_some_iff] at hk
      obtain ⟨b', h1, h2⟩ := hk
      split at h2
      · cases h2
      · cases h2; exact (h o rfl).1 _ _ h1
    · rw [if_neg hs] at e
      cases e1 : (if (msgConfig msg).isValid then Outcome.done (create (msgConfig msg)) else .abort) with
      | abort => rw [e1] at e; cases e
      | undefined => rw [e1] at e; cases e
      | done S => rw [e1] at e; exact Limits.applyBlocks now _ S R (hnew S e1) e

/-- A well-formed receiver that reads a message of a well-formed map stays well-formed and has the sender's settings. -/
theorem Sound.received {m : HashedWaveletOctree} (hm : m.Sound) (now : ℚ) (ks : List (Index 3)) (hks : ks.Nodup) (old : Option HashedWaveletOctree)
    (hold : ∀ o, old = some o → o.Sound) : ∃ msg R, m.toMsg ks = some msg ∧ HashedWaveletOctree.applyMsg now msg old = .done R ∧ R.Sound ∧
      R.config = recvConfig m.config := by
  have hv : m.config.isValid = true := by
    have h1 := hm.width
    have h2 := hm.bounds
    have h3 := hm.pos
    simp only [HashedWaveletOctreeConfig.isValid, Bool.and_eq_true, decide_eq_true_eq]
    exact ⟨⟨h1, h2⟩, h3⟩
  have hrecv : ∀ o, old = some o → o.RecvOk := fun o ho =>
    ⟨le_trans (hold o ho).le (by decide), (hold o ho).nodup, (hold o ho).heights⟩
  obtain ⟨msg, R, h1, h2, h3, h4, h5⟩ := applyMsg_spec now m hv hm.le (fun k b hb => (hm.fits k b hb).root) ks hks old hrecv
  have hlim := Limits.applyMsg (fun o ho => ⟨fun k b hb => ⟨((hold o ho).fits k b hb).minOk, ((hold o ho).fits k b hb).maxOk⟩, (hold o ho).nodup⟩) h2
  refine ⟨msg, R, h1, h2, ⟨?_, ?_, ?_, ?_, h4.nodup, fun k b hb => ?_⟩, h3⟩
  · rw [h3]; exact hm.width
  · rw [h3]; exact hm.pos
  · rw [h3]; exact hm.le
  · rw [h3]; exact hm.bounds
  · obtain ⟨hlo, hhi⟩ := hlim k b hb
    rcases h5 k with ⟨_, e⟩ | ⟨b0, e0, ⟨_, b', e1, e2⟩ | ⟨_, e1⟩⟩
    · rw [e] at hb; cases hb
    · rw [e1] at hb; cases hb
      have hf := hm.fits _ _ e0
      refine ⟨h4.blocks _ _ e1, hlo, hhi, ?_, ?_⟩
      · rw [e2.root, ← isNil_false_iff, WTree.norm_isNil, WTree.dropSat_isNil, isNil_false_iff]; exact hf.root
      · rw [e2.root, h3]; exact (hf.depth.dropSat _ _ _).norm
    · rw [hb] at e1
      unfold keptBlock at e1
      cases old with
      | none => cases e1
      | some o =>
        dsimp only at e1
        split at e1
        · next hs =>
          have hf := (hold o rfl).fits k b e1.symm
          have hc : o.config = R.config := by rw [h3]; exact (sameConfig_iff _ _).1 hs
          rw [← hc]; exact hf
        · cases e1

end HashedWaveletOctree

namespace HashedBlocks

theorem applyBlocks_wf : ∀ (l : List (Index 3 × List ℚ)) (m m' : HashedBlocks), m.Wf → applyBlocks l m = some m' → m'.Wf
  | [], m, m', h, e => by cases e; exact h
  | x :: l, m, m', h, e => by
    unfold applyBlocks at e
    dsimp only at e
    split at e
    · cases e
    · split at e
      · cases e
      · refine applyBlocks_wf l _ m' ?_ e
        unfold HashedBlocks.Wf DenseBlockHash.Wf
        dsimp only
        rw [SpatialHash.keys_modify]
        exact SpatialHash.keys_getOrAllocate _ _ _ h

theorem applyMsg_wf {msg : HashedBlocksMsg} {old : Option HashedBlocks} {R : HashedBlocks} (h : ∀ o, old = some o → o.Wf)
    (e : applyMsg msg old = .done R) : R.Wf := by
  unfold applyMsg at e
  dsimp only at e
  have hnew : ∀ S, (if MapBaseConfig.isValid ⟨msg.minCellWidth, msg.minLogOdds, msg.maxLogOdds⟩ then
      Outcome.done (create ⟨msg.minCellWidth, msg.minLogOdds, msg.maxLogOdds⟩ 0) else .abort) = .done S → S.Wf := by
    intro S hS
    split at hS
    · cases hS
      simp [HashedBlocks.Wf, DenseBlockHash.Wf, HashedBlocks.create, DenseBlockHash.create, SpatialHash.keys]
    · cases hS
  have hfin : ∀ S : Outcome HashedBlocks, (∀ m, S = .done m → m.Wf) →
      (S.bind fun m => match applyBlocks msg.blocks m with | none => .undefined | some m => .done m) = .done R → R.Wf := by
    intro S hS he
    cases S with
    | abort => cases he
    | undefined => cases he
    | done m =>
      simp only [Outcome.bind] at he
      split at he
      · cases he
      · next e1 => cases he; exact applyBlocks_wf _ _ _ (hS m rfl) e1
  refine hfin _ (fun m hm => ?_) e
  cases old with
  | none => exact hnew m hm
  | some o =>
    dsimp only at hm
    split at hm
    · cases hm
      exact SpatialHash.keys_eraseBlockIf o.hash.blockMap (fun k g => (g, !decide (k ∈ msg.allocated))) (h o rfl)
    · exact hnew m hm

end HashedBlocks

theorem AnyMap.Tidy.clear {m : AnyMap} (h : m.Tidy) : m.clear.Tidy ∧ m.clear.minCellWidth = m.minCellWidth ∧ m.clear.treeHeight = m.treeHeight := by
  cases m with
  | hashedBlocks m =>
    refine ⟨⟨?_, h.2⟩, rfl, rfl⟩
    show List.Nodup _
    exact List.nodup_nil
  | waveletOctree m => exact ⟨⟨WaveletOctree.Inv.clear h.1, h.2⟩, rfl, rfl⟩
  | hashedWavelet m =>
    have h : m.Sound := h
    exact ⟨⟨h.width, h.pos, h.le, h.bounds, List.nodup_nil, fun k b hb => by cases hb⟩, rfl, rfl⟩
  | hashedChunked m => cases h
  | volumetricOctree m => cases h

namespace SliceDisplay

/-! ## Histories -/

/-- An event of a display that is connected to servers whose maps all have cells of width `w` and height `H`: a message of some of the blocks of a well-formed map (or
of all of them), and whatever the user does except for resetting the display and loading a file. -/
inductive Served (w : ℚ) (H : Nat) : Event → Prop where
  | wavelet (m : HashedWaveletOctree) (hm : m.Sound) (hw : m.config.minCellWidth = w) (hH : m.config.treeHeight = H) (ks : List (Index 3)) (hks : ks.Nodup)
      (msg : HashedWaveletMsg) (hmsg : m.toMsg ks = some msg) (now : ℚ) : Served w H (.message ⟨[], [], [msg]⟩ now true)
  | blocks (m : HashedBlocks) (hm : m.WellFormed) (hw : m.config.minCellWidth = w) (hH : H = 0) (now : ℚ) : Served w H (.message ⟨[m.toMsg], [], []⟩ now true)
  | sourceMode : Served w H .sourceMode
  | setVisible (v : Bool) : Served w H (.setVisible v)
  | setMinLogOdds (v : ℚ) : Served w H (.setMinLogOdds v)
  | setMaxLogOdds (v : ℚ) : Served w H (.setMaxLogOdds v)
  | setHeight (v : ℚ) : Served w H (.setHeight v)
  | setAlpha (v : ℚ) : Served w H (.setAlpha v)
  | setColour (c : SliceColourMode) : Served w H (.setColour c)

/-- The map of the display, if there is one, is well-formed and has cells of width `w` and height `H`. -/
def MapOk (w : ℚ) (H : Nat) (s : SliceDisplay) : Prop := ∀ m, s.map = some m → m.Tidy ∧ m.minCellWidth = w ∧ m.treeHeight = H

theorem Fresh.served {w : ℚ} {H : Nat} {s : SliceDisplay} {e : Event} (h : Fresh w H s) (hm : s.MapOk w H) (he : Served w H e) :
    ∃ s', s.step e = .done s' ∧ Fresh w H s' ∧ s'.MapOk w H ∧ (s'.map = none → s.map = none) := by
  -- redrawing after a change that keeps the layers
  have redraw : ∀ t : SliceDisplay, t.levels = s.levels → t.alpha = s.alpha → (t.map = none → s.map = none) → t.MapOk w H →
      ∃ s', t.update = .done s' ∧ Fresh w H s' ∧ s'.MapOk w H ∧ (s'.map = none → s.map = none) := by
    intro t h1 h2 h3 h4
    obtain ⟨s2, g1, g2, g3⟩ := Fresh.update (w := w) (H := H) (s := t)
      ⟨by rw [h1]; exact h.fits.count, fun i l hl => by rw [h1] at hl; rw [h2]; exact h.fits.layer i l hl⟩
      (fun hz => by rw [h1]; exact h.noMap (h3 hz)) h4
    exact ⟨s2, g1, g3, fun m hm => h4 m (g2 ▸ hm), fun h => h3 (g2 ▸ h)⟩
  -- a map arrives
  have arrive : ∀ (msg : MapMsg) (now : ℚ) (m : AnyMap), rosMsgToMap now msg s.map = .done (true, some m) → m.Tidy → m.minCellWidth = w → m.treeHeight = H →
      ∃ s', s.step (.message msg now true) = .done s' ∧ Fresh w H s' ∧ s'.MapOk w H ∧ (s'.map = none → s.map = none) := by
    intro msg now m h1 h2 h3 h4
    obtain ⟨s', g1, g2⟩ := redraw { s with map := some m } rfl rfl (fun h => by cases h) (fun m' h => by cases h; exact ⟨h2, h3, h4⟩)
    refine ⟨s', ?_, g2⟩
    simp only [SliceDisplay.step, h1, Outcome.bind, Option.isSome_some, Bool.true_and, if_true]
    exact g1
  -- a property changes
  have change : ∀ (c : Prop) [Decidable c] (t : SliceDisplay), t.levels = s.levels → t.alpha = s.alpha → t.map = s.map →
      ∃ s', (if c then t.update else .done s) = .done s' ∧ Fresh w H s' ∧ s'.MapOk w H ∧ (s'.map = none → s.map = none) := by
    intro c _ t h1 h2 h3
    split
    · exact redraw t h1 h2 (fun h => h3 ▸ h) (fun m h => hm m (h3 ▸ h))
    · exact ⟨s, rfl, h, hm, id⟩
  cases he with
  | wavelet m hs hw hH ks hks msg hmsg now =>
    obtain ⟨msg', R, h1, h2, h3, h4⟩ := hs.received now ks hks (AnyMap.asHashedWavelet s.map) (by
      intro o ho
      unfold AnyMap.asHashedWavelet at ho
      split at ho
      · next m' e => cases ho; exact (hm _ e).1
      · cases ho)
    rw [hmsg] at h1
    cases h1
    refine arrive _ now (.hashedWavelet R) ?_ h3 ?_ ?_
    · unfold rosMsgToMap
      simp only [h2, Outcome.bind]
      rfl
    · show R.config.minCellWidth = w
      rw [h4]; exact hw
    · show R.config.treeHeight = H
      rw [h4]; exact hH
  | blocks m hs hw hH now =>
    have hold : ∀ o, AnyMap.asHashedBlocks s.map = some o → o.Wf := by
      intro o ho
      unfold AnyMap.asHashedBlocks at ho
      split at ho
      · next m' e => cases ho; exact (hm _ e).1.1
      · cases ho
    obtain ⟨R, h1, h2, _⟩ := C39_hashed_blocks m hs (AnyMap.asHashedBlocks s.map) hold
    have hpos : 0 < m.config.minCellWidth := by
      have := hs.valid
      simp only [MapBaseConfig.isValid, Bool.and_eq_true, decide_eq_true_eq] at this
      exact this.1
    refine arrive _ now (.hashedBlocks R) ?_ ⟨HashedBlocks.applyMsg_wf hold h1, by rw [h2]; exact hpos⟩ ?_ hH.symm
    · unfold rosMsgToMap
      simp only [h1, Outcome.bind]
      rfl
    · show R.config.minCellWidth = w
      rw [h2]; exact hw
  | sourceMode =>
    cases e : s.map with
    | none =>
      refine ⟨{ s with map := none }, ?_, ?_, (fun m h => by cases h), fun _ => rfl⟩
      · simp [SliceDisplay.step, e]
      · have hl := h.noMap e
        exact ⟨.of_nil (s := { s with map := none }) hl _ _, fun _ => hl, fun _ => hl, fun m h => by cases h⟩
    | some m =>
      obtain ⟨h1, h2, h3⟩ := hm m e
      obtain ⟨s', g1, g2⟩ := redraw { s with map := some m.clear } rfl rfl (fun h => by cases h)
        (fun m' h => by cases h; exact ⟨h1.clear.1, h1.clear.2.1.trans h2, h1.clear.2.2.trans h3⟩)
      exact ⟨s', by simpa [SliceDisplay.step, e] using g1, g2.1, g2.2.1, fun h => by rw [update_map g1] at h; cases h⟩
  | setVisible v => exact change (v ≠ s.visible) _ rfl rfl rfl
  | setMinLogOdds v => exact change (v ≠ s.minLogOdds) _ rfl rfl rfl
  | setMaxLogOdds v => exact change (v ≠ s.maxLogOdds) _ rfl rfl rfl
  | setHeight v => exact change (v ≠ s.height) _ rfl rfl rfl
  | setAlpha v => exact ⟨_, rfl, h.alpha v, hm, id⟩
  | setColour v => exact change (v ≠ s.colour) _ rfl rfl rfl

theorem Fresh.served_run {w : ℚ} {H : Nat} : ∀ (es : List Event) (s : SliceDisplay), Fresh w H s → s.MapOk w H → (∀ e ∈ es, Served w H e) →
    ∃ s', s.run es = .done s' ∧ Fresh w H s' ∧ s'.MapOk w H
  | [], s, h, hm, _ => ⟨s, rfl, h, hm⟩
  | e :: es, s, h, hm, he => by
    obtain ⟨s1, h1, h2, h3, _⟩ := h.served hm (he e List.mem_cons_self)
    obtain ⟨s2, h4, h5⟩ := Fresh.served_run es s1 h2 h3 fun e h => he e (List.mem_cons_of_mem _ h)
    refine ⟨s2, ?_, h5⟩
    rw [SliceDisplay.run, h1]
    exact h4

/-- The histories of `C74_served_partial` are steady. -/
theorem Fresh.served_steady {w : ℚ} {H : Nat} : ∀ (es : List Event) (s : SliceDisplay), Fresh w H s → s.MapOk w H → (∀ e ∈ es, Served w H e) → Steady w H s es
  | [], _, _, _, _ => trivial
  | e :: es, s, h, hm, he => by
    obtain ⟨s1, h1, h2, h3, h4⟩ := h.served hm (he e List.mem_cons_self)
    refine ⟨?_, fun s' hs => ?_⟩
    · cases he e List.mem_cons_self <;> trivial
    · rw [h1] at hs
      cases hs
      exact ⟨h4, h3, Fresh.served_steady es s1 h2 h3 fun e h => he e (List.mem_cons_of_mem _ h)⟩

theorem Fresh.initial (w : ℚ) (H : Nat) : Fresh w H {} :=
  ⟨.of_nil rfl _ _, fun _ => rfl, fun _ => rfl, fun m h => by cases h⟩

theorem MapOk.initial (w : ℚ) (H : Nat) : MapOk w H {} := fun m h => by cases h

/-! ## Any history -/

/-- What is true after any history. -/
structure Kept (s : SliceDisplay) : Prop where
  hidden : s.visible = false → s.levels = []
  alpha : ∀ layer ∈ s.levels, layer.alpha = s.alpha

theorem update_frame {s s' : SliceDisplay} (h : s.update = .done s') : s'.visible = s.visible ∧ s'.alpha = s.alpha ∧ (s.visible = false → s'.levels = []) ∧
    ((∀ layer ∈ s.levels, layer.alpha = s.alpha) → ∀ layer ∈ s'.levels, layer.alpha = s.alpha) := by
  unfold SliceDisplay.update at h
  split at h
  · cases h; exact ⟨rfl, rfl, fun _ => rfl, fun _ layer hl => by cases hl⟩
  · next hv =>
    split at h
    · cases h; exact ⟨rfl, rfl, fun hf => (by simp [hf] at hv), fun hl => hl⟩
    · split at h
      · cases h
      · cases e : s.leafCells _ _ _ with
        | done c =>
          rw [e] at h; cases h
          refine ⟨rfl, rfl, fun hf => (by simp [hf] at hv), fun ha layer hl => ?_⟩
          have hl : layer ∈ s.setLevels _ _ _ := hl
          unfold setLevels at hl
          rcases List.mem_append.1 hl with hl | hl
          · obtain ⟨i, _, rfl⟩ := List.mem_map.1 hl
            dsimp only
            split
            · next l e1 => exact ha l (List.mem_of_getElem? e1)
            · rfl
          · exact ha _ (List.mem_of_mem_drop hl)
        | abort => rw [e] at h; cases h
        | undefined => rw [e] at h; cases h

theorem Kept.update {s s' t : SliceDisplay} (h : s.Kept) (e : t.update = .done s') (hl : t.levels = s.levels) (ha : t.alpha = s.alpha) : s'.Kept := by
  obtain ⟨h1, h2, h3, h4⟩ := update_frame e
  exact ⟨fun hv => h3 (h1 ▸ hv), fun layer hm => (h4 (by rw [hl, ha]; exact h.alpha) layer hm).trans h2.symm⟩

theorem Kept.step {s s' : SliceDisplay} {e : Event} (h : s.Kept) (hs : s.step e = .done s') : s'.Kept := by
  cases e with
  | message msg now transform =>
    simp only [SliceDisplay.step] at hs
    cases er : rosMsgToMap now msg s.map with
    | abort => rw [er] at hs; cases hs
    | undefined => rw [er] at hs; cases hs
    | done r =>
      rw [er] at hs
      simp only [Outcome.bind] at hs
      split at hs
      · exact h.update hs rfl rfl
      · cases hs; exact ⟨h.hidden, h.alpha⟩
  | load file now =>
    simp only [SliceDisplay.step] at hs
    split at hs
    · cases hs
    · cases hs
    · split at hs
      · exact h.update hs rfl rfl
      · cases hs; exact ⟨h.hidden, h.alpha⟩
    · split at hs <;> cases hs
      · exact ⟨h.hidden, h.alpha⟩
      · exact h
  | sourceMode =>
    simp only [SliceDisplay.step] at hs
    split at hs
    · exact h.update hs rfl rfl
    · cases hs; exact ⟨h.hidden, h.alpha⟩
  | reset => cases hs; exact ⟨fun _ => rfl, fun layer hl => by cases hl⟩
  | setVisible v =>
    simp only [SliceDisplay.step] at hs
    split at hs
    · exact h.update hs rfl rfl
    · cases hs; exact h
  | setMinLogOdds v =>
    simp only [SliceDisplay.step] at hs
    split at hs
    · exact h.update hs rfl rfl
    · cases hs; exact h
  | setMaxLogOdds v =>
    simp only [SliceDisplay.step] at hs
    split at hs
    · exact h.update hs rfl rfl
    · cases hs; exact h
  | setHeight v =>
    simp only [SliceDisplay.step] at hs
    split at hs
    · exact h.update hs rfl rfl
    · cases hs; exact h
  | setAlpha a =>
    cases hs
    refine ⟨fun hv => ?_, fun layer hl => ?_⟩
    · show List.map _ s.levels = []
      rw [h.hidden hv]; rfl
    · obtain ⟨_, _, rfl⟩ := List.mem_map.1 hl
      rfl
  | setColour v =>
    simp only [SliceDisplay.step] at hs
    split at hs
    · exact h.update hs rfl rfl
    · cases hs; exact h

theorem Kept.run : ∀ (es : List Event) (s s' : SliceDisplay), s.Kept → s.run es = .done s' → s'.Kept
  | [], s, s', h, hr => by cases hr; exact h
  | e :: es, s, s', h, hr => by
    rw [SliceDisplay.run] at hr
    cases e1 : s.step e with
    | abort => rw [e1] at hr; cases hr
    | undefined => rw [e1] at hr; cases hr
    | done s1 =>
      rw [e1] at hr
      exact Kept.run es s1 s' (h.step e1) hr

theorem run_append (es es' : List Event) (s : SliceDisplay) : s.run (es ++ es') = (s.run es).bind (SliceDisplay.run es') := by
  induction es generalizing s with
  | nil => rfl
  | cons e es ih =>
    rw [List.cons_append, SliceDisplay.run, SliceDisplay.run]
    cases s.step e with
    | done s1 => exact ih s1
    | abort => rfl
    | undefined => rfl

end SliceDisplay
open SliceDisplay

/-- C74: after any history of messages from servers and of changes made by the user, the slice display shows its current map on the plane at the chosen height: exactly
one square, colored by the cell's value, over every point at which the plane cuts a stored cell whose value is within the thresholds, and none elsewhere. The servers'
maps must share a cell width and a height; the display never fails. -/
theorem C74_served_partial (w : ℚ) (H : Nat) (es : List SliceDisplay.Event) (he : ∀ e ∈ es, Served w H e) :
    ∃ s, SliceDisplay.run es {} = .done s ∧ ∀ m, s.map = some m → s.visible = true → s.Shows m := by
  obtain ⟨s, h1, h2, _⟩ := Fresh.served_run es {} (.initial w H) (.initial w H) he
  exact ⟨s, h1, h2.shows_⟩

/-- C74: the same for any history (of arbitrary messages and files), provided that it does not fail, that the display is not reset, that the frames of all messages are
known, and that all maps are well-formed and share a cell width and a height. -/
theorem C74_shown_partial (w : ℚ) (H : Nat) (es : List SliceDisplay.Event) (s : SliceDisplay) (hr : SliceDisplay.run es {} = .done s)
    (hs : Steady w H {} es) (m : AnyMap) (hm : s.map = some m) (hv : s.visible = true) : s.Shows m :=
  (Fresh.run es {} s (.initial w H) (MapOk.initial w H) hs hr).shows_ m hm hv

/-- C74: the slice display can always be repaired: after any history, switching it off and on again makes it show its map. -/
theorem C74_redrawn (es : List SliceDisplay.Event) (s : SliceDisplay) (hr : SliceDisplay.run es {} = .done s) (m : AnyMap) (hm : s.map = some m) (ht : m.Tidy) :
    ∃ s', SliceDisplay.run (es ++ [.setVisible false, .setVisible true]) {} = .done s' ∧ s'.map = some m ∧ s'.Shows m := by
  have hk := Kept.run es {} s ⟨fun _ => rfl, fun layer hl => by cases hl⟩ hr
  obtain ⟨s1, h1, h2, h3, h4⟩ : ∃ s1, s.step (.setVisible false) = .done s1 ∧ s1.map = some m ∧ s1.levels = [] ∧ s1.visible = false := by
    cases hv : s.visible with
    | false => exact ⟨s, by simp [SliceDisplay.step, hv], hm, hk.hidden hv, hv⟩
    | true => exact ⟨SliceDisplay.clear { s with visible := false }, by simp [SliceDisplay.step, hv, SliceDisplay.update], hm, rfl, rfl⟩
  obtain ⟨levels, g1, _, g3⟩ := update_spec (s := { s1 with visible := true }) rfl h2 ht (.of_nil (s := { s1 with visible := true }) h3 _ _)
  refine ⟨_, ?_, ?_, g3⟩
  · rw [run_append, hr]
    show (s.step _).bind _ = _
    rw [h1]
    show (s1.step _).bind _ = _
    have : s1.step (.setVisible true) = .done { s1 with visible := true, levels := levels } := by
      simp only [SliceDisplay.step, h4]
      exact g1
    rw [this]; rfl
  · exact h2

/-- C74: after any history, nothing is drawn while the slice display is switched off. -/
theorem C74_hidden (es : List SliceDisplay.Event) (s : SliceDisplay) (hr : SliceDisplay.run es {} = .done s) (hv : s.visible = false) : s.squares = [] := by
  have := (Kept.run es {} s ⟨fun _ => rfl, fun layer hl => by cases hl⟩ hr).hidden hv
  unfold squares
  rw [this]; rfl

/-- C74: after any history, all squares have the opacity that is set. -/
theorem C74_opacity (es : List SliceDisplay.Event) (s : SliceDisplay) (hr : SliceDisplay.run es {} = .done s) : ∀ q ∈ s.squares, q.alpha = s.alpha := by
  intro q hq
  obtain ⟨layer, hl, hq⟩ := List.mem_flatMap.1 hq
  obtain ⟨_, _, rfl⟩ := List.mem_map.1 hq
  exact (Kept.run es {} s ⟨fun _ => rfl, fun layer hl => by cases hl⟩ hr).alpha layer hl

end Wavemap
