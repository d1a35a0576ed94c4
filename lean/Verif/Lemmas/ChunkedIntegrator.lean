import Verif.Model.ChunkedIntegrator
import Verif.Lemmas.WaveletIntegrator
import Verif.Lemmas.ChunkedWavelet
/-! Helper lemmas for C44: the chunked integrator performs the same recursion on chunks that `updNode` performs on a plain tree. -/
namespace Wavemap
open Haar NTree

/-- The chunked integrator's treatment of a child, in blocks of height `H`. -/
def chunkedAction (scan : Scan) (lo hi : ℚ) (T : Int) (H : Nat) (_node : WTree) (n : NdtreeIndex 3) (v : ℚ) : ChildAction :=
  if n.height ≤ T ∧ n.height + 2 ≤ H then .assign (leafUpdate scan lo hi n v) false
  else if scan.updateType n = .fullyUnobserved then .keep
  else if scan.updateType n ≠ .possiblyOccupied ∧ v < lo + chunkedNoise then .keep
  else if scan.coarseEnough (scan.updateType n) n then .assign (v + scan.sample n) true
  else .refine

theorem leafUpdate_clamp (scan : Scan) {lo hi : ℚ} (h : lo ≤ hi) (n : NdtreeIndex 3) (v : ℚ) :
    leafUpdate scan lo hi n v = clamp (lo - chunkedNoise) (hi + chunkedNoise) (scan.sample n + v) := by
  have hn : (0 : ℚ) ≤ chunkedNoise := by unfold chunkedNoise; norm_num
  unfold leafUpdate clamp
  dsimp only
  by_cases h1 : scan.sample n + v < lo - chunkedNoise
  · rw [if_pos h1, if_pos h1, if_neg (by linarith)]
  · rw [if_neg h1, if_neg h1]

namespace WChunks
open Chunks

/-! ## Replacing a child, and the data of a node -/

theorem setChild_sub {s s2 : WChunks} {p : List (Fin (2 ^ 3))} {t u : WTree} {c : Fin (2 ^ 3)} (ht : t ≠ .nil) (h : Sub s p t)
    (hl : s.live (at_ p) = true) (hu : Sub s2 (p ++ [c]) u)
    (hf : Frame (s.getOrAllocateChild zeroDetails 3 chunkHeight (at_ p) c).1 s2 (p ++ [c])) :
    Sub s2 p (t.setChild c u) ∧ s2.live (at_ p) = true ∧ Frame s s2 p := by
  have hlp : (s.getOrAllocateChild zeroDetails 3 chunkHeight (at_ p) c).1.live (at_ p) = true := by
    rw [alloc_live, hl]; rfl
  have hfr1 := alloc_frame (c := chunkHeight) hd3 hc3 hc3' zeroDetails s p c
  have hslot1 : (s.getOrAllocateChild zeroDetails 3 chunkHeight (at_ p) c).1.slot zeroDetails 3 (at_ p)
      = (WTree.details t, true) := by
    rw [alloc_slot hd3 hc3' zeroDetails s (ChunkNode.ofPath_ok hc3 p) (ChunkNode.ofPath_ok hc3 p), if_pos ⟨rfl, hl⟩, h.slot, data_getD]
  have hoth : ∀ j, j ≠ c → Sub (s.getOrAllocateChild zeroDetails 3 chunkHeight (at_ p) c).1 (p ++ [j]) (t.child j) :=
    fun j hj => alloc_sub_child hd3 hc3 hc3' hj (h.child j)
  generalize (s.getOrAllocateChild zeroDetails 3 chunkHeight (at_ p) c).1 = s1 at *
  have hlp2 : s2.live (at_ p) = true := by
    rw [Chunks.Frame.live hf (snoc_not_prefix p c)]; exact hlp
  have hslot2 : s2.slot zeroDetails 3 (at_ p) = (WTree.details t, true) := by
    rw [Chunks.Frame.slot hf]; exact hslot1
  refine ⟨?_, hlp2, hfr1.trans hf.widen⟩
  apply Chunks.Sub.assemble
  · rw [hslot2]
    cases t <;> simp_all [NTree.setChild, NTree.hasChildrenArray, NTree.data?, WTree.details]
  · intro h0
    rw [hlp2]
    cases t <;> simp_all [NTree.setChild, NTree.isNil]
  · intro j
    rw [NTree.setChild_child t ht]
    by_cases hj : j = c
    · subst hj; rw [if_pos rfl]; exact hu
    · rw [if_neg hj]
      exact Chunks.Frame.sub hf hj (hoth j hj)

theorem setData_sub {s : WChunks} {p : List (Fin (2 ^ 3))} {t : WTree} (ht : t ≠ .nil) (h : Sub s p t) (hl : s.live (at_ p) = true) (a : Details 3) :
    Sub (s.setData 3 (at_ p) a) p (t.setData a) ∧ Frame s (s.setData 3 (at_ p) a) p := by
  refine ⟨?_, setData_frame hd3 hc3 hc3' _ _ _ _⟩
  apply Chunks.Sub.assemble
  · rw [setData_slot_self hd3 hc3 hc3' _ _ hl, h.slot]
    cases t <;> simp_all [NTree.setData, NTree.hasChildrenArray, NTree.data?]
  · intro h0
    rw [live_setData, h.root_live h0]
    cases t <;> simp [NTree.setData, NTree.isNil]
  · intro j
    rw [WTree.setData_child]
    exact setData_sub_child hd3 hc3 hc3' _ (h.child j)

/-! ## The recursion -/

variable {scan : Scan} {lo hi : ℚ} {T : Int} {H : Nat}

theorem assign_fold {act : WTree → NdtreeIndex 3 → ℚ → ChildAction} {rec : WTree → NdtreeIndex 3 → ℚ → Bool → WTree × ℚ × Bool} {n : NdtreeIndex 3}
    {f : Fin (2 ^ 3) → ℚ → ℚ} (hact : ∀ node c v, act node (n.computeChildIndex c.val) v = .assign (f c v) false) (l : List (Fin (2 ^ 3))) :
    l.Nodup → ∀ (t : WTree) (w : Coeffs 3) (b : Bool),
      l.foldl (updStep act rec n) (t, w, b) = (t, fun c => if c ∈ l then f c (w c) else w c, b) := by
  induction l with
  | nil => intro _ t w b; simp
  | cons c l ih =>
    intro hl t w b
    rw [List.nodup_cons] at hl
    rw [List.foldl_cons]
    have : updStep act rec n (t, w, b) c = (t, fun c' => if c' = c then f c (w c) else w c', b) := by
      unfold updStep
      rw [hact]
      simp
    rw [this, ih hl.2]
    refine congrArg (fun x => (t, x, b)) (funext fun c' => ?_)
    by_cases hc : c' = c
    · subst hc; simp [hl.1]
    · simp [hc]

/-- A batch of leaves. -/
theorem leavesBatch_eq (h : Nat) (n : NdtreeIndex 3) (hn : n.height = ((h + 1 : Nat) : Int)) (hT : (h : Int) ≤ T) (hH : h + 2 ≤ H) (t : WTree) (v : ℚ) (b : Bool) :
    updNode (chunkedAction scan lo hi T H) (h + 1) t n v b =
      (t.setData (leavesBatch scan lo hi n v (WTree.details t)).details, (leavesBatch scan lo hi n v (WTree.details t)).scale, b) := by
  have hh : ∀ c : Fin (2 ^ 3), (n.computeChildIndex c.val).height = (h : Int) := fun c => by show n.height - 1 = _; rw [hn]; push_cast; ring
  have hact : ∀ node (c : Fin (2 ^ 3)) v, chunkedAction scan lo hi T H node (n.computeChildIndex c.val) v =
      .assign (leafUpdate scan lo hi (n.computeChildIndex c.val) v) false := by
    intro node c v
    unfold chunkedAction
    rw [if_pos]
    rw [hh c]
    exact ⟨hT, by exact_mod_cast hH⟩
  simp only [updNode]
  rw [assign_fold (f := fun c v => leafUpdate scan lo hi (n.computeChildIndex c.val) v) hact _ (List.nodup_finRange _)]
  simp only [List.mem_finRange, if_true]
  rfl

/-- The recursive call does what `updNode` does. -/
def UpdCall (act : WTree → NdtreeIndex 3 → ℚ → ChildAction) (rec : WChunks → ChunkNode → NdtreeIndex 3 → ℚ → Bool → Option (WChunks × ℚ × Bool))
    (h : Nat) (p : List (Fin (2 ^ 3))) (n : NdtreeIndex 3) : Prop :=
  ∀ (s : WChunks) (t : WTree), t ≠ .nil → Sub s p t → s.live (at_ p) = true → ∀ (v : ℚ) (b : Bool), ∃ s',
    rec s (at_ p) n v b = some (s', (updNode act h t n v b).2.1, (updNode act h t n v b).2.2) ∧
      Sub s' p (updNode act h t n v b).1 ∧ Frame s s' p

theorem updateChildren_spec (hT : 0 ≤ T) (hH : 2 ≤ H) {rec p} {n : NdtreeIndex 3} (h : Nat) (hn : n.height = ((h + 1 : Nat) : Int)) (hle : h + 1 ≤ H)
    (hev : h + 1 = H ∨ T < (h : Int))
    (hrec : T + 1 < (h : Int) → ∀ c : Fin (2 ^ 3), UpdCall (chunkedAction scan lo hi T H) rec h (p ++ [c]) (n.computeChildIndex c.val)) (l : List (Fin (2 ^ 3))) :
    ∀ (s : WChunks) (x : WTree × Coeffs 3 × Bool), x.1 ≠ .nil → Sub s p x.1 → s.live (at_ p) = true → ∃ s',
      updateChildren rec scan lo hi T (at_ p) n l (s, x.2.1, x.2.2) =
        some (s', (l.foldl (updStep (chunkedAction scan lo hi T H) (updNode (chunkedAction scan lo hi T H) h) n) x).2.1,
          (l.foldl (updStep (chunkedAction scan lo hi T H) (updNode (chunkedAction scan lo hi T H) h) n) x).2.2) ∧
      Sub s' p (l.foldl (updStep (chunkedAction scan lo hi T H) (updNode (chunkedAction scan lo hi T H) h) n) x).1 ∧
      s'.live (at_ p) = true ∧ Frame s s' p := by
  have hh : ∀ c : Fin (2 ^ 3), (n.computeChildIndex c.val).height = (h : Int) := fun c => by show n.height - 1 = _; rw [hn]; push_cast; ring
  induction l with
  | nil => intro s x hx hs hl; exact ⟨s, rfl, hs, hl, Chunks.Frame.refl _ _ _⟩
  | cons c l ih =>
    intro s x hx hs hl
    obtain ⟨t, w, b⟩ := x
    rw [List.foldl_cons, updateChildren]
    have hnb : ¬ ((n.computeChildIndex c.val).height ≤ T ∧ (n.computeChildIndex c.val).height + 2 ≤ H) := by rw [hh c]; omega
    dsimp only at hx hs ⊢
    unfold updStep
    dsimp only
    unfold chunkedAction
    rw [if_neg hnb]
    by_cases h1 : scan.updateType (n.computeChildIndex c.val) = .fullyUnobserved
    · rw [if_pos h1, if_pos h1]
      exact ih s (t, w, b) hx hs hl
    rw [if_neg h1, if_neg h1]
    by_cases h2 : scan.updateType (n.computeChildIndex c.val) ≠ .possiblyOccupied ∧ w c < lo + chunkedNoise
    · rw [if_pos h2, if_pos h2]
      exact ih s (t, w, b) hx hs hl
    rw [if_neg h2, if_neg h2]
    by_cases h3 : scan.coarseEnough (scan.updateType (n.computeChildIndex c.val)) (n.computeChildIndex c.val) = true
    · rw [if_pos h3, if_pos h3]
      dsimp only
      rw [Bool.or_true]
      exact ih s (t, fun c' => if c' = c then w c + scan.sample (n.computeChildIndex c.val) else w c', true) hx hs hl
    rw [if_neg h3, if_neg h3]
    dsimp only
    have e : (s.getOrAllocateChild zeroDetails 3 chunkHeight (at_ p) c).2 = at_ (p ++ [c]) := by
      rw [alloc_snd]; exact (ChunkNode.ofPath_snoc p c).symm
    rw [e]
    have hs1 : Sub (s.getOrAllocateChild zeroDetails 3 chunkHeight (at_ p) c).1 (p ++ [c])
        (t.getOrAllocateChild c zeroDetails) := alloc_sub_self hd3 hc3 hc3' hs
    have hl1 := alloc_live_self zeroDetails s p c hl
    have hne := NTree.getOrAllocateChild_ne_nil t c zeroDetails
    by_cases h4 : (n.computeChildIndex c.val).height ≤ T + 1
    · rw [if_pos h4]
      rw [hh c] at h4
      obtain ⟨k, rfl⟩ : ∃ k, h = k + 1 := ⟨h - 1, by omega⟩
      have hb := leavesBatch_eq (scan := scan) (lo := lo) (hi := hi) (T := T) (H := H) k (n.computeChildIndex c.val) (hh c) (by omega) (by omega)
        (t.getOrAllocateChild c zeroDetails) (w c) b
      have hb' := hb
      unfold chunkedAction at hb'
      rw [hb']
      dsimp only
      rw [hs1.details]
      obtain ⟨d1, d2⟩ := setData_sub hne hs1 hl1 (leavesBatch scan lo hi (n.computeChildIndex c.val) (w c) (WTree.details (t.getOrAllocateChild c zeroDetails))).details
      obtain ⟨f1, f2, f3⟩ := setChild_sub hx hs hl d1 d2
      obtain ⟨s', g1, g2, g3, g4⟩ := ih _ (t.setChild c ((t.getOrAllocateChild c zeroDetails).setData
        (leavesBatch scan lo hi (n.computeChildIndex c.val) (w c) (WTree.details (t.getOrAllocateChild c zeroDetails))).details),
        (fun c' => if c' = c then (leavesBatch scan lo hi (n.computeChildIndex c.val) (w c) (WTree.details (t.getOrAllocateChild c zeroDetails))).scale else w c'), b)
        (setChild_ne_nil _ hx _ _) f1 f2
      exact ⟨s', g1, g2, g3, f3.trans g4⟩
    · rw [if_neg h4]
      rw [hh c] at h4
      obtain ⟨s2, k1, k2, k3⟩ := hrec (by omega) c _ _ hne hs1 hl1 (w c) b
      rw [k1]
      dsimp only
      obtain ⟨f1, f2, f3⟩ := setChild_sub hx hs hl k2 k3
      obtain ⟨s', g1, g2, g3, g4⟩ := ih s2 (t.setChild c (updNode (chunkedAction scan lo hi T H) h (t.getOrAllocateChild c zeroDetails) (n.computeChildIndex c.val) (w c) b).1,
        (fun c' => if c' = c then (updNode (chunkedAction scan lo hi T H) h (t.getOrAllocateChild c zeroDetails) (n.computeChildIndex c.val) (w c) b).2.1 else w c'),
        (updNode (chunkedAction scan lo hi T H) h (t.getOrAllocateChild c zeroDetails) (n.computeChildIndex c.val) (w c) b).2.2)
        (setChild_ne_nil _ hx _ _) f1 f2
      exact ⟨s', g1, g2, g3, f3.trans g4⟩

theorem updateNode_spec (hT : 0 ≤ T) (hH : 2 ≤ H) (fuel : Nat) : ∀ (h : Nat) (p : List (Fin (2 ^ 3))) (n : NdtreeIndex 3), 0 < h → h < fuel →
    n.height = (h : Int) → h ≤ H → (h = H ∨ T + 1 < (h : Int)) →
    UpdCall (chunkedAction scan lo hi T H) (updateNode scan lo hi T fuel) h p n := by
  induction fuel with
  | zero => intro h p n _ hh; omega
  | succ fuel ih =>
    intro h p n hpos hfuel hn hle hev s t ht hs hl v b
    obtain ⟨h, rfl⟩ : ∃ k, h = k + 1 := ⟨h - 1, by omega⟩
    obtain ⟨s', h1, h2, h3, h4⟩ := updateChildren_spec (scan := scan) (lo := lo) (hi := hi) (T := T) (H := H) (rec := updateNode scan lo hi T fuel) (p := p) (n := n)
      hT hH h hn hle (by push_cast at hev; omega)
      (fun hx c => ih h (p ++ [c]) _ (by omega) (by omega) (by show n.height - 1 = _; rw [hn]; push_cast; ring) (by omega) (Or.inr hx))
      (List.finRange (2 ^ 3)) s (t, backward 3 ⟨v, WTree.details t⟩, b) ht hs hl
    have hne := updFold_ne_nil (act := chunkedAction scan lo hi T H) (rec := updNode (chunkedAction scan lo hi T H) h) (n := n) (List.finRange (2 ^ 3))
      (x := (t, backward 3 ⟨v, WTree.details t⟩, b)) ht
    dsimp only at h1
    rw [updateNode, hs.details, h1]
    dsimp only
    obtain ⟨d1, d2⟩ := setData_sub hne h2 h3 (forward 3 ((List.finRange (2 ^ 3)).foldl (updStep (chunkedAction scan lo hi T H)
      (updNode (chunkedAction scan lo hi T H) h) n) (t, backward 3 ⟨v, WTree.details t⟩, b)).2.1).details
    exact ⟨_, rfl, d1, h4.trans d2⟩

end WChunks

/-! ## Bounds -/

/-- If every assignment marks the block or is within the bounds at height 0, an unmarked block stays within the bounds. -/
theorem updNode_bounded {act : WTree → NdtreeIndex 3 → ℚ → ChildAction} {L U : ℚ}
    (hact : ∀ node n v w b, act node n v = .assign w b → b = true ∨ (n.height ≤ 0 ∧ L ≤ w ∧ w ≤ U))
    (href : ∀ node n v, act node n v = .refine → 0 < n.height) (h : Nat) :
    ∀ (t : WTree) (n : NdtreeIndex 3) (v : ℚ) (b : Bool), n.height = (h : Int) → t ≠ .nil → WTree.DepthLe h t → WTree.Bounded L U t v →
      (updNode act h t n v b).2.2 = false → WTree.Bounded L U (updNode act h t n v b).1 (updNode act h t n v b).2.1 := by
  induction h with
  | zero => intro t n v b _ _ _ hb _; exact hb
  | succ h ih =>
    intro t n v b hn ht hd hb hf q hq
    have hh : ∀ c : Fin (2 ^ 3), (n.computeChildIndex c.val).height = (h : Int) := fun c => by show n.height - 1 = _; rw [hn]; push_cast; ring
    rw [updNode_flag_eq h t ht, Bool.or_eq_false_iff, List.any_eq_false] at hf
    cases q with
    | nil => exact absurd hq (updNode_ne_nil _ ht _ _ _)
    | cons c q =>
      rw [descend_cons, updNode_child h t ht] at hq
      rw [updNode_getValue_cons h t ht]
      have hfc := hf.2 c (List.mem_finRange c)
      have hchild : WTree.Bounded L U (t.child c) (backward 3 ⟨v, WTree.details t⟩ c) := by
        intro q hq
        have := hb (c :: q) (by rw [descend_cons]; exact hq)
        rwa [WTree.getValue_cons _ ht, ← bwd3_single] at this
      revert hq hfc
      unfold updChild
      split
      · intro hq _; exact hchild q hq
      · rename_i w b' ha
        intro hq hfc
        rcases hact _ _ _ _ _ ha with hb' | ⟨h0, h1⟩
        · exact absurd hb' (by simpa using hfc)
        · rw [hh c] at h0
          obtain rfl : h = 0 := by omega
          have : t.child c = .nil := hd c
          rw [this, WTree.getValue_nil]
          exact h1
      · rename_i ha
        intro hq hfc
        refine ih _ _ _ _ (hh c) (getOrAllocateChild_ne_nil _ _ _) ?_ ?_ (by simpa using hfc) q hq
        · cases h with
          | zero =>
            exfalso
            have := href _ _ _ ha
            rw [hh c] at this
            exact absurd this (by decide)
          | succ h => exact hd.getOrAllocate c zeroDetails
        · intro q hq
          rw [WTree.getOrAllocate_getValue]
          apply hchild
          rcases eq_or_ne q [] with rfl | hne
          · exact absurd hq (getOrAllocateChild_ne_nil _ _ _)
          · rwa [getOrAllocate_descend _ _ _ _ hne] at hq

/-! ## Blocks -/

theorem chunkedAction_height {scan : Scan} {lo hi : ℚ} {T : Int} {H : Nat} (hT : 0 ≤ T) (hH : 2 ≤ H) (node : WTree) (n : NdtreeIndex 3) (v : ℚ)
    (ha : chunkedAction scan lo hi T H node n v = .refine) : 0 < n.height := by
  by_contra hle
  unfold chunkedAction at ha
  rw [if_pos (by omega)] at ha
  cases ha

/-- The plain block that corresponds to the chunked block after an update. -/
def WaveletBlock.updatedChunked (scan : Scan) (config : HashedWaveletOctreeConfig) (b : WaveletBlock) (k : Index 3) (now : ℚ) : WaveletBlock :=
  let r := updNode (chunkedAction scan config.minLogOdds config.maxLogOdds (scan.terminationHeight config.minCellWidth) config.treeHeight) config.treeHeight b.root
    ⟨config.treeHeight, k⟩ b.rootScale b.needsThresholding
  { b with root := r.1, rootScale := r.2.1, needsThresholding := r.2.2, needsPruning := true, lastUpdated := now }

theorem WaveletBlock.Fits.updatedChunked {scan : Scan} {config : HashedWaveletOctreeConfig} {b : WaveletBlock}
    (h : b.Fits config.treeHeight config.minLogOdds config.maxLogOdds) (hw : 0 < config.minCellWidth) (hH : 2 ≤ config.treeHeight) (k : Index 3) (now : ℚ) :
    (b.updatedChunked scan config k now).Fits config.treeHeight config.minLogOdds config.maxLogOdds :=
  ⟨h.height, h.minOk, h.maxOk, updNode_ne_nil _ h.root _ _ _,
    updNode_depth (chunkedAction_height (scan.terminationHeight_nonneg _ hw) hH) _ _ _ _ _ rfl h.root h.depth⟩

end Wavemap
