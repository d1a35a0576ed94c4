import Verif.Model.ChunkedWavelet
import Verif.Lemmas.ChunkedSim
import Verif.Lemmas.WaveletOps
import Verif.Lemmas.WaveletLeaves
/-! # The chunked wavelet algorithms compute what the plain ones compute -/
namespace Wavemap
open Haar
open ChunkNode (root ofPath ofPath_nil ofPath_snoc ofPath_ok ofPath_inj)

namespace Chunks
variable {α : Type} {d c : Nat}

theorem snoc_not_prefix {β : Type} (p : List β) (i : β) : ¬ p ++ [i] <+: p := by
  intro h; have := h.length_le; simp at this

theorem snoc_prefix_snoc {β : Type} {p q : List β} {i j : β} (h : p ++ [i] <+: p ++ [j] ++ q) : i = j := by
  rw [List.append_assoc, List.prefix_append_right_inj] at h
  exact (List.cons_prefix_cons.mp h).1

theorem Frame.refl (zero : α) (s : Chunks α) (p : List (Fin (2 ^ d))) : Frame zero d c s s p := fun _ _ => ⟨rfl, fun _ => rfl⟩

theorem Frame.trans {zero : α} {s s' s'' : Chunks α} {p : List (Fin (2 ^ d))} (h : Frame zero d c s s' p)
    (h' : Frame zero d c s' s'' p) : Frame zero d c s s'' p := fun q hq =>
  ⟨(h' q hq).1.trans (h q hq).1, fun hd => ((h' q hq).2 hd).trans ((h q hq).2 hd)⟩

theorem Frame.widen {zero : α} {s s' : Chunks α} {p : List (Fin (2 ^ d))} {i}
    (h : Frame zero d c s s' (p ++ [i])) : Frame zero d c s s' p := fun q hq =>
  h q fun hx => hq ((List.prefix_append _ _).trans hx)

theorem Frame.live {zero : α} {s s' : Chunks α} {p q : List (Fin (2 ^ d))} (h : Frame zero d c s s' p)
    (hq : ¬ p <+: q) : s'.live (ofPath d c q) = s.live (ofPath d c q) := by
  obtain ⟨u, h1, h2, h3⟩ := ChunkNode.chunk_root (c := c) q
  have := (h u (fun hx => hq (hx.trans h1))).2 h2
  unfold Chunks.live at this ⊢
  rwa [h3] at this

theorem Frame.sub {zero : α} {s s' : Chunks α} {p : List (Fin (2 ^ d))} {i j t} (h : Frame zero d c s s' (p ++ [i]))
    (hij : j ≠ i) (hs : Sub zero d c s (p ++ [j]) t) : Sub zero d c s' (p ++ [j]) t :=
  hs.congr (fun q => (h _ fun hx => hij (snoc_prefix_snoc hx).symm).1)
    (fun q => (h _ fun hx => hij (snoc_prefix_snoc hx).symm).2)

theorem Frame.slot {zero : α} {s s' : Chunks α} {p : List (Fin (2 ^ d))} {i} (h : Frame zero d c s s' (p ++ [i])) :
    s'.slot zero d (ofPath d c p) = s.slot zero d (ofPath d c p) := (h p (snoc_not_prefix p i)).1

theorem Sub.slot {zero : α} {s : Chunks α} {p t} (h : Sub zero d c s p t) :
    s.slot zero d (ofPath d c p) = (t.data?.getD zero, t.hasChildrenArray) := by
  have h1 := h.data []
  have h2 := h.bit []
  rw [List.append_nil] at h1 h2
  exact Prod.ext (by simpa using h1) (by simpa using h2)

theorem Sub.root_live {zero : α} {s : Chunks α} {p t} (h : Sub zero d c s p t) (hp : (ofPath d c p).depth = 0) :
    s.live (ofPath d c p) = !t.isNil := by
  have h1 := h.chunk []
  rw [List.append_nil] at h1
  rw [h1 hp]
  cases t <;> simp [NTree.isNil]

theorem Sub.assemble {zero : α} {s : Chunks α} {p} {t : NTree (2 ^ d) α}
    (hs : s.slot zero d (ofPath d c p) = (t.data?.getD zero, t.hasChildrenArray))
    (hl : (ofPath d c p).depth = 0 → s.live (ofPath d c p) = !t.isNil)
    (hch : ∀ i, Sub zero d c s (p ++ [i]) (t.child i)) : Sub zero d c s p t := by
  refine ⟨fun q => ?_, fun q => ?_, fun q => ?_⟩
  · cases q with
    | nil => rw [List.append_nil, hs]; simp
    | cons i q => have := (hch i).data q; simpa using this
  · cases q with
    | nil => rw [List.append_nil, hs]; simp
    | cons i q => have := (hch i).bit q; simpa using this
  · cases q with
    | nil => intro h; rw [List.append_nil] at h ⊢; rw [hl h]; cases t <;> simp [NTree.isNil]
    | cons i q => have := (hch i).chunk q; simpa using this

/-- Only the slot at `p` and the subtrees of the children changed. -/
theorem Sub.child_live {zero : α} {s : Chunks α} {p t} (h : Sub zero d c s p t) (hl : s.live (ofPath d c p) = true)
    {i r} (hg : s.getChild d c (ofPath d c p) i = some r) : s.live (ofPath d c (p ++ [i])) = true := by
  rw [h.getChild] at hg
  split at hg
  · rename_i hx
    by_cases h0 : (ofPath d c (p ++ [i])).depth = 0
    · rw [(h.child i).root_live h0, hx.2 h0]; rfl
    · rw [ofPath_snoc, ChunkNode.child] at h0 ⊢
      split at h0
      · simp at h0
      · rename_i hk
        rw [if_neg hk]
        exact hl
  · simp at hg

theorem getChild_local {zero : α} {s : Chunks α} {p} {t : NTree (2 ^ d) α} {i}
    (hs : (s.slot zero d (ofPath d c p)).2 = t.hasChildrenArray) (h : Sub zero d c s (p ++ [i]) (t.child i)) :
    s.getChild d c (ofPath d c p) i
      = if t.hasChildrenArray = true ∧ ((ofPath d c (p ++ [i])).depth = 0 → (t.child i).isNil = false)
        then some (ofPath d c (p ++ [i])) else none := by
  rw [getChild_eq zero, hs]
  have : ((ofPath d c (p ++ [i])).depth = 0 → s.live (ofPath d c (p ++ [i])) = true) ↔
      ((ofPath d c (p ++ [i])).depth = 0 → (t.child i).isNil = false) := by
    constructor
    · intro h3 h4
      have := h3 h4
      rw [h.root_live h4] at this
      simpa using this
    · intro h3 h4
      rw [h.root_live h4, h3 h4]; rfl
  by_cases hx : t.hasChildrenArray = true ∧ ((ofPath d c (p ++ [i])).depth = 0 → (t.child i).isNil = false)
  · rw [if_pos hx, if_pos ⟨hx.1, this.2 hx.2⟩]
  · rw [if_neg hx, if_neg (fun h => hx ⟨h.1, this.1 h.2⟩)]

theorem child_live_local {zero : α} {s : Chunks α} {p} {t : NTree (2 ^ d) α} {i}
    (h : Sub zero d c s (p ++ [i]) (t.child i)) (hl : s.live (ofPath d c p) = true)
    (hx : (ofPath d c (p ++ [i])).depth = 0 → (t.child i).isNil = false) : s.live (ofPath d c (p ++ [i])) = true := by
  by_cases h0 : (ofPath d c (p ++ [i])).depth = 0
  · rw [h.root_live h0, hx h0]; rfl
  · rw [ofPath_snoc, ChunkNode.child] at h0 ⊢
    split at h0
    · simp at h0
    · rename_i hk
      rw [if_neg hk]
      exact hl

theorem setData_frame (hd : 0 < d) (hc : 0 < c) (hc' : c ≤ 64 / d - 1) (zero : α) (s : Chunks α)
    (p : List (Fin (2 ^ d))) (a : α) : Frame zero d c s (s.setData d (ofPath d c p) a) p := by
  intro q hq
  refine ⟨?_, fun _ => setData_live s _ _ a⟩
  rw [setData_slot hd hc' zero s (ofPath_ok hc p) (ofPath_ok hc q), if_neg]
  rintro ⟨h, -⟩
  have := ofPath_inj h
  subst this
  exact hq List.prefix_rfl

theorem setBit_frame (hd : 0 < d) (hc : 0 < c) (hc' : c ≤ 64 / d - 1) (zero : α) (s : Chunks α)
    (p : List (Fin (2 ^ d))) (b : Bool) : Frame zero d c s (s.setHasAtLeastOneChild d (ofPath d c p) b) p := by
  intro q hq
  refine ⟨?_, fun _ => setBit_live s _ _ b⟩
  rw [setBit_slot hd hc' zero s (ofPath_ok hc p) (ofPath_ok hc q), if_neg]
  rintro ⟨h, -⟩
  have := ofPath_inj h
  subst this
  exact hq List.prefix_rfl

theorem setData_sub_child (hd : 0 < d) (hc : 0 < c) (hc' : c ≤ 64 / d - 1) {zero : α} {s : Chunks α}
    {p : List (Fin (2 ^ d))} (a : α) {i t} (h : Sub zero d c s (p ++ [i]) t) :
    Sub zero d c (s.setData d (ofPath d c p) a) (p ++ [i]) t := by
  refine h.congr (fun q => ?_) (fun q _ => setData_live s _ _ a)
  rw [setData_slot hd hc' zero s (ofPath_ok hc p) (ofPath_ok hc _), if_neg]
  rintro ⟨h, -⟩
  have := congrArg List.length (ofPath_inj h)
  simp at this

theorem setBit_sub_child (hd : 0 < d) (hc : 0 < c) (hc' : c ≤ 64 / d - 1) {zero : α} {s : Chunks α}
    {p : List (Fin (2 ^ d))} (b : Bool) {i t} (h : Sub zero d c s (p ++ [i]) t) :
    Sub zero d c (s.setHasAtLeastOneChild d (ofPath d c p) b) (p ++ [i]) t := by
  refine h.congr (fun q => ?_) (fun q _ => setBit_live s _ _ b)
  rw [setBit_slot hd hc' zero s (ofPath_ok hc p) (ofPath_ok hc _), if_neg]
  rintro ⟨h, -⟩
  have := congrArg List.length (ofPath_inj h)
  simp at this

theorem setData_slot_self (hd : 0 < d) (hc : 0 < c) (hc' : c ≤ 64 / d - 1) (zero : α) {s : Chunks α}
    {p : List (Fin (2 ^ d))} (a : α) (hl : s.live (ofPath d c p) = true) :
    (s.setData d (ofPath d c p) a).slot zero d (ofPath d c p) = (a, (s.slot zero d (ofPath d c p)).2) := by
  rw [setData_slot hd hc' zero s (ofPath_ok hc p) (ofPath_ok hc p), if_pos ⟨rfl, hl⟩]

theorem setBit_slot_self (hd : 0 < d) (hc : 0 < c) (hc' : c ≤ 64 / d - 1) (zero : α) {s : Chunks α}
    {p : List (Fin (2 ^ d))} (b : Bool) (hl : s.live (ofPath d c p) = true) :
    (s.setHasAtLeastOneChild d (ofPath d c p) b).slot zero d (ofPath d c p) = ((s.slot zero d (ofPath d c p)).1, b) := by
  rw [setBit_slot hd hc' zero s (ofPath_ok hc p) (ofPath_ok hc p), if_pos ⟨rfl, hl⟩]

theorem erase_frame (hd : 0 < d) (hc : 0 < c) (hc' : c ≤ 64 / d - 1) (zero : α) (s : Chunks α)
    (p : List (Fin (2 ^ d))) (i) (hb : s.hasAtLeastOneChild d (ofPath d c p) = true) :
    Frame zero d c s (s.eraseChild zero d c (ofPath d c p) i) (p ++ [i]) := by
  intro q hq
  have := erase_effect hd hc hc' zero s p q i hb
  refine ⟨by rw [this.1, if_neg hq], fun h => by rw [this.2 h, if_neg hq]⟩

theorem erase_sub (hd : 0 < d) (hc : 0 < c) (hc' : c ≤ 64 / d - 1) (zero : α) (s : Chunks α)
    (p : List (Fin (2 ^ d))) (i) (hb : s.hasAtLeastOneChild d (ofPath d c p) = true) :
    Sub zero d c (s.eraseChild zero d c (ofPath d c p) i) (p ++ [i]) .nil := by
  refine ⟨fun q => ?_, fun q => ?_, fun q hq => ?_⟩
  · rw [(erase_effect hd hc hc' zero s p _ i hb).1, if_pos (List.prefix_append _ _)]; simp
  · rw [(erase_effect hd hc hc' zero s p _ i hb).1, if_pos (List.prefix_append _ _)]; simp
  · rw [(erase_effect hd hc hc' zero s p _ i hb).2 hq, if_pos (List.prefix_append _ _)]; simp

theorem alloc_sub_child (hd : 0 < d) (hc : 0 < c) (hc' : c ≤ 64 / d - 1) {zero : α} {s : Chunks α}
    {p : List (Fin (2 ^ d))} {i j t} (hij : j ≠ i) (h : Sub zero d c s (p ++ [j]) t) :
    Sub zero d c (s.getOrAllocateChild zero d c (ofPath d c p) i).1 (p ++ [j]) t := by
  refine h.congr (fun q => ?_) (fun q hq => ?_)
  · rw [alloc_slot hd hc' zero s (ofPath_ok hc p) (ofPath_ok hc _), if_neg]
    rintro ⟨h, -⟩
    have := congrArg List.length (ofPath_inj h)
    simp at this
  · rw [alloc_live_path hc zero s p _ i hq]
    have : ¬ (p ++ [j] ++ q = p ++ [i]) := by
      intro hx
      rw [List.append_assoc] at hx
      have := List.append_cancel_left hx
      simp at this
      exact hij this.1
    rw [decide_eq_false this, Bool.or_false]

theorem alloc_sub_self (hd : 0 < d) (hc : 0 < c) (hc' : c ≤ 64 / d - 1) {zero : α} {s : Chunks α}
    {p : List (Fin (2 ^ d))} {i t} (h : Sub zero d c s p t) :
    Sub zero d c (s.getOrAllocateChild zero d c (ofPath d c p) i).1 (p ++ [i]) (t.getOrAllocateChild i zero) := by
  have hslot : ∀ q, (s.getOrAllocateChild zero d c (ofPath d c p) i).1.slot zero d (ofPath d c (p ++ [i] ++ q))
      = s.slot zero d (ofPath d c (p ++ [i] ++ q)) := by
    intro q
    rw [alloc_slot hd hc' zero s (ofPath_ok hc p) (ofPath_ok hc _), if_neg]
    rintro ⟨h, -⟩
    have := congrArg List.length (ofPath_inj h)
    simp at this
  have hchild := h.child i
  refine ⟨fun q => ?_, fun q => ?_, fun q hq => ?_⟩
  · rw [hslot, hchild.data]
    unfold NTree.getOrAllocateChild
    split
    · rename_i hn; rw [hn]; cases q <;> simp
    · rfl
  · rw [hslot, hchild.bit, NTree.getOrAllocateChild_arr]
  · rw [alloc_live_path hc zero s p _ i hq, hchild.chunk q hq]
    unfold NTree.getOrAllocateChild
    split
    · rename_i hn; rw [hn]; cases q <;> simp
    · rename_i hn
      cases q with
      | nil => cases hx : t.child i <;> simp_all
      | cons j q => simp

theorem alloc_frame (hd : 0 < d) (hc : 0 < c) (hc' : c ≤ 64 / d - 1) (zero : α) (s : Chunks α)
    (p : List (Fin (2 ^ d))) (i) : Frame zero d c s (s.getOrAllocateChild zero d c (ofPath d c p) i).1 p := by
  intro q hq
  refine ⟨?_, fun h0 => ?_⟩
  · rw [alloc_slot hd hc' zero s (ofPath_ok hc p) (ofPath_ok hc _), if_neg]
    rintro ⟨h, -⟩
    have := ofPath_inj h
    subst this
    exact hq List.prefix_rfl
  · rw [alloc_live_path hc zero s p _ i h0]
    have : ¬ (q = p ++ [i]) := by rintro rfl; exact hq (List.prefix_append _ _)
    simp [this]

end Chunks

theorem WTree.DepthLe.child' {k : Nat} {t : WTree} (h : WTree.DepthLe k t) (i : Fin (2 ^ 3)) :
    WTree.DepthLe (k - 1) (NTree.child t i) := by
  cases k with
  | zero => have : t = .nil := h; subst this; exact WTree.DepthLe.nil _
  | succ k => exact h i

theorem WTree.DepthLe.pos {k : Nat} {t : WTree} (h : WTree.DepthLe k t) (ht : t ≠ .nil) : 0 < k := by
  cases k with
  | zero => exact absurd h ht
  | succ k => omega

namespace WChunks
open Chunks

abbrev Sub (s : WChunks) (p : List (Fin (2 ^ 3))) (t : WTree) : Prop := Chunks.Sub zeroDetails 3 chunkHeight s p t
abbrev Frame (s s' : WChunks) (p : List (Fin (2 ^ 3))) : Prop := Chunks.Frame zeroDetails 3 chunkHeight s s' p
abbrev at_ (p : List (Fin (2 ^ 3))) : ChunkNode := ofPath 3 chunkHeight p

theorem hd3 : 0 < 3 := by decide
theorem hc3 : 0 < chunkHeight := by decide
theorem hc3' : chunkHeight ≤ 64 / 3 - 1 := by decide

theorem data_getD (t : WTree) : t.data?.getD zeroDetails = WTree.details t := by
  cases t <;> rfl

theorem Sub.details {s : WChunks} {p t} (h : Sub s p t) : WChunks.details s (at_ p) = WTree.details t := by
  have := h.slot
  unfold WChunks.details
  rw [data_slot, this, data_getD]

theorem Sub.flag {s : WChunks} {p t} (h : Sub s p t) : s.hasAtLeastOneChild 3 (at_ p) = t.hasChildrenArray := by
  have := h.slot
  rw [bit_slot zeroDetails, this]

/-! ## Values -/

theorem getValue_eq (q : List (Fin (2 ^ 3))) : ∀ {s : WChunks} {p t}, Sub s p t → ∀ v,
    getValue s (at_ p) v q = WTree.getValue t v q := by
  induction q with
  | nil => intro s p t h v; rw [WTree.getValue_nil_path]; rfl
  | cons i q ih =>
    intro s p t h v
    have hg := Chunks.Sub.getChild h i
    rw [getValue, h.details]
    by_cases ht : t = .nil
    · subst ht
      rw [WTree.getValue_nil]
      have : s.getChild 3 chunkHeight (at_ p) i = none := by rw [hg, if_neg]; simp [NTree.hasChildrenArray]
      rw [this]
      exact bwd_single_const v i
    · rw [WTree.getValue_cons t ht]
      cases hx : s.getChild 3 chunkHeight (at_ p) i with
      | none =>
        have : t.child i = .nil := by
          by_contra hn
          rw [hg, if_pos] at hx
          · simp at hx
          · exact ⟨by cases t <;> simp_all [NTree.hasChildrenArray], fun _ => NTree.isNil_false.2 hn⟩
        rw [this, WTree.getValue_nil]
      | some r =>
        have : r = at_ (p ++ [i]) := by
          rw [hg] at hx
          split at hx
          · exact (Option.some.inj hx).symm
          · simp at hx
        subst this
        exact ih (h.child i) _

theorem currentValue_eq (q : List (Fin (2 ^ 3))) : ∀ {s : WChunks} {p t}, Sub s p t → ∀ v,
    currentValue s (at_ p) v q = WTree.currentValue t v q := by
  induction q with
  | nil => intro s p t h v; simp [currentValue, WTree.currentValue]
  | cons i q ih =>
    intro s p t h v
    cases q with
    | nil => simp [currentValue, WTree.currentValue]
    | cons i' q =>
      rw [currentValue, WTree.currentValue, h.details]
      have e : (s.getOrAllocateChild zeroDetails 3 chunkHeight (at_ p) i).2 = at_ (p ++ [i]) := by
        rw [alloc_snd]; exact (ofPath_snoc p i).symm
      rw [e]
      exact ih (alloc_sub_self hd3 hc3 hc3' h) _

theorem live_setData {s : WChunks} (r r' : ChunkNode) (a) : (s.setData 3 r a).live r' = s.live r' := setData_live s r r' a

theorem addPath_spec (q : List (Fin (2 ^ 3))) : ∀ {s : WChunks} {p t}, t ≠ .nil → Sub s p t → s.live (at_ p) = true → ∀ u,
    (addPath s (at_ p) q u).2 = (WTree.addPath t q u).2 ∧ Sub (addPath s (at_ p) q u).1 p (WTree.addPath t q u).1 ∧
    Frame s (addPath s (at_ p) q u).1 p ∧ (addPath s (at_ p) q u).1.live (at_ p) = true := by
  induction q with
  | nil =>
    intro s p t ht h hl u
    rw [addPath, WTree.addPath]
    exact ⟨rfl, h, Chunks.Frame.refl _ _ _, hl⟩
  | cons i q ih =>
    intro s p t ht h hl u
    cases q with
    | nil =>
      rw [addPath, WTree.addPath, h.details]
      dsimp only
      refine ⟨rfl, ?_, setData_frame hd3 hc3 hc3' _ _ _ _, by rw [live_setData]; exact hl⟩
      apply Chunks.Sub.assemble
      · rw [setData_slot_self hd3 hc3 hc3' _ _ hl, h.slot]
        cases t <;> simp_all [WTree.withDetails, NTree.setData, NTree.hasChildrenArray, NTree.data?]
      · intro h0
        rw [live_setData, h.root_live h0]
        cases t <;> simp [WTree.withDetails, NTree.setData, NTree.isNil]
      · intro j
        have : (t.withDetails fun k => WTree.details t k + (forwardSingleChild 3 u i).details k).child j = t.child j :=
          WTree.setData_child _ _ _
        rw [this]
        exact setData_sub_child hd3 hc3 hc3' _ (h.child j)
    | cons i' q =>
      rw [addPath, WTree.addPath]
      dsimp only
      have e : (s.getOrAllocateChild zeroDetails 3 chunkHeight (at_ p) i).2 = at_ (p ++ [i]) := by
        rw [alloc_snd]; exact (ofPath_snoc p i).symm
      rw [e]
      have hs1 : Sub (s.getOrAllocateChild zeroDetails 3 chunkHeight (at_ p) i).1 (p ++ [i])
          (t.getOrAllocateChild i zeroDetails) := alloc_sub_self hd3 hc3 hc3' h
      have hl1 := alloc_live_self zeroDetails s p i hl
      obtain ⟨h1, h2, h3, h4⟩ := ih (NTree.getOrAllocateChild_ne_nil t i zeroDetails) hs1 hl1 u
      have hlp : (s.getOrAllocateChild zeroDetails 3 chunkHeight (at_ p) i).1.live (at_ p) = true := by
        rw [alloc_live, hl]; rfl
      have hfr1 := alloc_frame (c := chunkHeight) hd3 hc3 hc3' zeroDetails s p i
      have hslot1 : (s.getOrAllocateChild zeroDetails 3 chunkHeight (at_ p) i).1.slot zeroDetails 3 (at_ p)
          = (WTree.details t, true) := by
        rw [alloc_slot hd3 hc3' zeroDetails s (ofPath_ok hc3 p) (ofPath_ok hc3 p), if_pos ⟨rfl, hl⟩, h.slot, data_getD]
      have hoth : ∀ j, j ≠ i → Sub (s.getOrAllocateChild zeroDetails 3 chunkHeight (at_ p) i).1 (p ++ [j]) (t.child j) :=
        fun j hj => alloc_sub_child hd3 hc3 hc3' hj (h.child j)
      have hdep : (at_ p).depth = 0 → (s.getOrAllocateChild zeroDetails 3 chunkHeight (at_ p) i).1.live (at_ p) = true :=
        fun _ => hlp
      generalize (s.getOrAllocateChild zeroDetails 3 chunkHeight (at_ p) i).1 = s1 at *
      rw [h1]
      generalize (WTree.addPath (t.getOrAllocateChild i zeroDetails) (i' :: q) u) = tu at *
      generalize hs2 : (addPath s1 (at_ (p ++ [i])) (i' :: q) u).1 = s2 at *
      have hlp2 : s2.live (at_ p) = true := by
        rw [Chunks.Frame.live h3 (snoc_not_prefix p i)]; exact hlp
      have hslot2 : s2.slot zeroDetails 3 (at_ p) = (WTree.details t, true) := by
        rw [Chunks.Frame.slot h3]; exact hslot1
      have hdet : WChunks.details s2 (at_ p) = WTree.details t := by
        unfold WChunks.details; rw [data_slot, hslot2]
      rw [hdet]
      refine ⟨rfl, ?_, (hfr1.trans h3.widen).trans (setData_frame hd3 hc3 hc3' _ _ _ _), by rw [live_setData]; exact hlp2⟩
      have hsc : t.setChild i tu.1 ≠ .nil := by cases t <;> simp_all [NTree.setChild]
      apply Chunks.Sub.assemble
      · rw [setData_slot_self hd3 hc3 hc3' _ _ hlp2, hslot2]
        cases t <;> simp_all [WTree.withDetails, NTree.setData, NTree.setChild, NTree.hasChildrenArray, NTree.data?]
      · intro h0
        rw [live_setData, hlp2]
        cases t <;> simp_all [WTree.withDetails, NTree.setData, NTree.setChild, NTree.isNil]
      · intro j
        have : (WTree.withDetails (t.setChild i tu.1)
            fun k => WTree.details t k + (forwardSingleChild 3 tu.2 i).details k).child j
            = if j = i then tu.1 else t.child j := by
          unfold WTree.withDetails
          rw [WTree.setData_child, NTree.setChild_child t ht]
        rw [this]
        apply setData_sub_child hd3 hc3 hc3'
        by_cases hj : j = i
        · subst hj; rw [if_pos rfl]; exact h2
        · rw [if_neg hj]
          exact Chunks.Frame.sub h3 hj (hoth j hj)

/-! ## Thresholding -/

theorem forward_const (k : ℚ) : forward 3 (fun _ => k) = ⟨k, zeroDetails⟩ := by
  have h1 : backward 3 ⟨k, zeroDetails⟩ = fun _ => k := by
    funext i; rw [bwd3_single]; exact bwd_single_const k i
  rw [← h1]
  exact C10_forward_backward 3 h3 ⟨k, zeroDetails⟩

/-- What a recursive call on a child promises. -/
def ThrCall (lo hi : ℚ) (rec : WChunks → ChunkNode → ℚ → Option (WChunks × ℚ)) (p : List (Fin (2 ^ 3))) (t : WTree) : Prop :=
  ∀ s, Sub s p t → s.live (at_ p) = true → ∀ v, ∃ s' w, rec s (at_ p) v = some (s', w) ∧
    w = (WTree.recThreshold lo hi t v).2 ∧ Sub s' p (WTree.recThreshold lo hi t v).1 ∧ Frame s s' p

theorem thresholdChildren_spec {lo hi : ℚ} {rec p} {t : WTree}
    (hrec : t.hasChildrenArray = true → ∀ i, ThrCall lo hi rec (p ++ [i]) (t.child i)) (l : List (Fin (2 ^ 3))) (hnd : l.Nodup) :
    ∀ (s : WChunks) (v : Fin (2 ^ 3) → ℚ), (s.slot zeroDetails 3 (at_ p)).2 = t.hasChildrenArray →
      s.live (at_ p) = true → (∀ j ∈ l, Sub s (p ++ [j]) (t.child j)) →
    ∃ s' w, thresholdChildren rec lo hi (at_ p) l (s, v) = some (s', w) ∧
      (∀ j, w j = if j ∈ l then (WTree.recThreshold lo hi (t.child j) (v j)).2 else v j) ∧
      (∀ j ∈ l, Sub s' (p ++ [j]) (WTree.recThreshold lo hi (t.child j) (v j)).1) ∧
      (∀ j, j ∉ l → ∀ u, Sub s (p ++ [j]) u → Sub s' (p ++ [j]) u) ∧
      s'.slot zeroDetails 3 (at_ p) = s.slot zeroDetails 3 (at_ p) ∧ s'.live (at_ p) = true ∧ Frame s s' p := by
  induction l with
  | nil =>
    intro s v hs hl _
    exact ⟨s, v, rfl, fun j => by simp, fun j hj => by simp at hj, fun j _ u h => h, rfl, hl, Chunks.Frame.refl _ _ _⟩
  | cons i l ih =>
    intro s v hs hl hsub
    have hil : i ∉ l := (List.nodup_cons.mp hnd).1
    have hnd' := (List.nodup_cons.mp hnd).2
    have hsi := hsub i (List.mem_cons_self ..)
    -- one step
    have step : ∃ s1 w1, thresholdChildren rec lo hi (at_ p) (i :: l) (s, v)
          = thresholdChildren rec lo hi (at_ p) l (s1, fun j => if j = i then w1 else v j) ∧
        w1 = (WTree.recThreshold lo hi (t.child i) (v i)).2 ∧
        Sub s1 (p ++ [i]) (WTree.recThreshold lo hi (t.child i) (v i)).1 ∧ Frame s s1 (p ++ [i]) := by
      have hg := getChild_local (i := i) hs hsi
      by_cases hx : t.hasChildrenArray = true ∧ ((at_ (p ++ [i])).depth = 0 → (t.child i).isNil = false)
      · rw [if_pos hx] at hg
        obtain ⟨s', w, h1, h2, h3, h4⟩ := hrec hx.1 i s hsi (child_live_local hsi hl hx.2) (v i)
        refine ⟨s', w, ?_, h2, h3, h4⟩
        rw [thresholdChildren, hg]
        simp only [h1]
      · rw [if_neg hx] at hg
        have hnil : t.child i = .nil := by
          by_contra hn
          exact hx ⟨by cases t <;> simp_all [NTree.hasChildrenArray], fun _ => NTree.isNil_false.2 hn⟩
        refine ⟨s, clamp lo hi (v i), ?_, ?_, ?_, Chunks.Frame.refl _ _ _⟩
        · rw [thresholdChildren, hg]
        · rw [hnil]; rfl
        · rw [hnil] at hsi ⊢; exact hsi
    obtain ⟨s1, w1, e, h1, h2, h3⟩ := step
    have hlp : s1.live (at_ p) = true := by rw [Chunks.Frame.live h3 (snoc_not_prefix p i)]; exact hl
    have hsl : s1.slot zeroDetails 3 (at_ p) = s.slot zeroDetails 3 (at_ p) := Chunks.Frame.slot h3
    obtain ⟨s2, w2, g1, g2, g3, g4, g5, g6, g7⟩ := ih hnd' s1 (fun j => if j = i then w1 else v j) (by rw [hsl]; exact hs) hlp
      (fun j hj => Chunks.Frame.sub h3 (by rintro rfl; exact hil hj) (hsub j (List.mem_cons_of_mem _ hj)))
    refine ⟨s2, w2, e.trans g1, ?_, ?_, ?_, g5.trans hsl, g6, h3.widen.trans g7⟩
    · intro j
      rw [g2 j]
      by_cases hj : j = i
      · subst hj; rw [if_neg hil, if_pos rfl, if_pos (List.mem_cons_self ..)]; exact h1
      · by_cases hl' : j ∈ l
        · rw [if_pos hl', if_neg hj, if_pos (List.mem_cons_of_mem _ hl')]
        · rw [if_neg hl', if_neg hj, if_neg (fun h => hl' ((List.mem_cons.1 h).resolve_left hj))]
    · intro j hj
      by_cases hji : j = i
      · subst hji
        exact g4 j hil _ h2
      · have hj' : j ∈ l := by simpa [hji] using hj
        have := g3 j hj'
        rwa [if_neg hji] at this
    · intro j hj u hu
      have hji : j ≠ i := by rintro rfl; exact hj (List.mem_cons_self ..)
      exact g4 j (fun h => hj (List.mem_cons_of_mem _ h)) u (Chunks.Frame.sub h3 hji hu)

theorem recThreshold_spec (lo hi : ℚ) (fuel : Nat) : ∀ (t : WTree) (k : Nat) p, t.DepthLe k → k < fuel →
    ThrCall lo hi (recThreshold lo hi fuel) p t := by
  induction fuel with
  | zero => intro t k p _ h; omega
  | succ fuel ih =>
    intro t k p hk hfuel s hs hl v
    have hrec : t.hasChildrenArray = true → ∀ i, ThrCall lo hi (recThreshold lo hi fuel) (p ++ [i]) (t.child i) := by
      intro ha i
      have hpos := hk.pos (by rintro rfl; simp [NTree.hasChildrenArray] at ha)
      exact ih (t.child i) (k - 1) _ (hk.child' i) (by omega)
    have hslot := hs.slot
    obtain ⟨s', w, h1, h2, h3, -, h5, h6, h7⟩ := thresholdChildren_spec hrec (List.finRange (2 ^ 3)) (List.nodup_finRange _) s
      (backward 3 ⟨v, WTree.details t⟩) (by rw [hslot]) hl (fun j _ => hs.child j)
    have hw : w = fun j => (WTree.recThreshold lo hi (t.child j) (backwardSingleChild 3 ⟨v, WTree.details t⟩ j)).2 := by
      funext j
      rw [h2 j, if_pos (List.mem_finRange j), bwd3_single]
    refine ⟨s'.setData 3 (at_ p) (forward 3 w).details, (forward 3 w).scale, ?_, ?_, ?_, ?_⟩
    · rw [recThreshold, hs.details, h1]
    · by_cases ht : t = .nil
      · subst ht
        have : w = fun _ => clamp lo hi v := by
          rw [hw]; funext j
          have : backwardSingleChild 3 ⟨v, WTree.details .nil⟩ j = v := bwd_single_const v j
          rw [this]; rfl
        rw [this, forward_const]; rfl
      · rw [WTree.recThreshold_scale lo hi t ht, hw]; rfl
    · apply Chunks.Sub.assemble
      · rw [setData_slot_self hd3 hc3 hc3' _ _ h6, h5, hslot]
        by_cases ht : t = .nil
        · subst ht
          have : w = fun _ => clamp lo hi v := by
            rw [hw]; funext j
            have : backwardSingleChild 3 ⟨v, WTree.details .nil⟩ j = v := bwd_single_const v j
            rw [this]; rfl
          rw [this, forward_const]; rfl
        · rw [data_getD (WTree.recThreshold lo hi t v).1, WTree.recThreshold_details lo hi t ht, hw]
          have : (WTree.recThreshold lo hi t v).1.hasChildrenArray = t.hasChildrenArray := by
            cases t <;> rfl
          rw [this]; rfl
      · intro h0
        rw [live_setData, h6]
        have h8 := hs.root_live h0
        rw [hl] at h8
        have : (WTree.recThreshold lo hi t v).1.isNil = t.isNil := by cases t <;> rfl
        rw [this]; exact h8
      · intro j
        rw [WTree.recThreshold_child]
        apply setData_sub_child hd3 hc3 hc3'
        have := h3 j (List.mem_finRange j)
        rwa [bwd3_single] at this
    · exact h7.trans (setData_frame hd3 hc3 hc3' _ _ _ _)

/-! ## Pruning -/

/-- What a recursive call on a child promises. -/
def PruneCall (rec : WChunks → ChunkNode → Option WChunks) (p : List (Fin (2 ^ 3))) (t : WTree) : Prop :=
  ∀ s, Sub s p t → s.live (at_ p) = true → ∃ s', rec s (at_ p) = some s' ∧ Sub s' p (WTree.recPrune t) ∧ Frame s s' p

/-- The child as its parent keeps it. -/
def keptChild (t : WTree) : WTree := if WTree.keepChild (WTree.recPrune t) then WTree.recPrune t else .nil

theorem pruneChildren_spec {rec p} {t : WTree}
    (hrec : t.hasChildrenArray = true → ∀ i, PruneCall rec (p ++ [i]) (t.child i)) (l : List (Fin (2 ^ 3))) (hnd : l.Nodup) :
    ∀ (s : WChunks) (b : Bool), (s.slot zeroDetails 3 (at_ p)).2 = t.hasChildrenArray →
      s.live (at_ p) = true → (∀ j ∈ l, Sub s (p ++ [j]) (t.child j)) →
    ∃ s' b', pruneChildren rec (at_ p) l (s, b) = some (s', b') ∧
      b' = (b || l.any fun j => WTree.keepChild (WTree.recPrune (t.child j))) ∧
      (∀ j ∈ l, Sub s' (p ++ [j]) (keptChild (t.child j))) ∧
      (∀ j, j ∉ l → ∀ u, Sub s (p ++ [j]) u → Sub s' (p ++ [j]) u) ∧
      s'.slot zeroDetails 3 (at_ p) = s.slot zeroDetails 3 (at_ p) ∧ s'.live (at_ p) = true ∧ Frame s s' p := by
  induction l with
  | nil =>
    intro s b hs hl _
    exact ⟨s, b, rfl, by simp, fun j hj => by simp at hj, fun j _ u h => h, rfl, hl, Chunks.Frame.refl _ _ _⟩
  | cons i l ih =>
    intro s b hs hl hsub
    have hil : i ∉ l := (List.nodup_cons.mp hnd).1
    have hnd' := (List.nodup_cons.mp hnd).2
    have hi := hsub i (List.mem_cons_self ..)
    have step : ∃ s1 b1, pruneChildren rec (at_ p) (i :: l) (s, b) = pruneChildren rec (at_ p) l (s1, b1) ∧
        b1 = (b || WTree.keepChild (WTree.recPrune (t.child i))) ∧
        Sub s1 (p ++ [i]) (keptChild (t.child i)) ∧ Frame s s1 (p ++ [i]) := by
      have hg := getChild_local (i := i) hs hi
      by_cases hx : t.hasChildrenArray = true ∧ ((at_ (p ++ [i])).depth = 0 → (t.child i).isNil = false)
      · rw [if_pos hx] at hg
        obtain ⟨s', h1, h2, h3⟩ := hrec hx.1 i s hi (child_live_local hi hl hx.2)
        have hfl : s'.hasAtLeastOneChild 3 (at_ (p ++ [i])) = (WTree.recPrune (t.child i)).hasChildrenArray := h2.flag
        have hdt : WChunks.details s' (at_ (p ++ [i])) = WTree.details (WTree.recPrune (t.child i)) := h2.details
        have hkeep : WTree.keepChild (WTree.recPrune (t.child i))
            = !(!s'.hasAtLeastOneChild 3 (at_ (p ++ [i])) &&
                !WTree.nonzeroData WTree.pruneThreshold (WChunks.details s' (at_ (p ++ [i])))) := by
          rw [hfl, hdt, WTree.keepChild]
          cases hn : WTree.recPrune (t.child i) with
          | nil =>
            have : WTree.nonzeroData WTree.pruneThreshold (WTree.details .nil) = false := by decide +kernel
            rw [this]; rfl
          | leaf a => simp [NTree.isNil]
          | node a ch => simp [NTree.isNil]
        have hbp : s'.hasAtLeastOneChild 3 (at_ p) = true := by
          rw [bit_slot zeroDetails, Chunks.Frame.slot h3, hs]; exact hx.1
        rw [pruneChildren, hg]
        simp only [h1]
        split
        · rename_i hc
          rw [hc] at hkeep
          refine ⟨s'.eraseChild zeroDetails 3 chunkHeight (at_ p) i, b, rfl, ?_, ?_, ?_⟩
          · rw [hkeep]; simp
          · unfold keptChild
            rw [hkeep]
            exact erase_sub hd3 hc3 hc3' _ _ _ _ hbp
          · exact h3.trans (erase_frame hd3 hc3 hc3' _ _ _ _ hbp)
        · rename_i hc
          have hc' : (!s'.hasAtLeastOneChild 3 (at_ (p ++ [i])) &&
                !WTree.nonzeroData WTree.pruneThreshold (WChunks.details s' (at_ (p ++ [i])))) = false := by
            cases hz : (!s'.hasAtLeastOneChild 3 (at_ (p ++ [i])) &&
                !WTree.nonzeroData WTree.pruneThreshold (WChunks.details s' (at_ (p ++ [i])))) with
            | false => rfl
            | true => exact absurd hz hc
          rw [hc'] at hkeep
          refine ⟨s', true, rfl, ?_, ?_, h3⟩
          · rw [hkeep]; simp
          · unfold keptChild
            rw [hkeep]; exact h2
      · rw [if_neg hx] at hg
        have hnil : t.child i = .nil := by
          by_contra hn
          exact hx ⟨by cases t <;> simp_all [NTree.hasChildrenArray], fun _ => NTree.isNil_false.2 hn⟩
        refine ⟨s, b, ?_, ?_, ?_, Chunks.Frame.refl _ _ _⟩
        · rw [pruneChildren, hg]
        · rw [hnil]; simp [WTree.recPrune, WTree.keepChild, NTree.isNil]
        · rw [hnil] at hi ⊢; exact hi
    obtain ⟨s1, b1, e, h1, h2, h3⟩ := step
    have hlp : s1.live (at_ p) = true := by rw [Chunks.Frame.live h3 (snoc_not_prefix p i)]; exact hl
    have hsl : s1.slot zeroDetails 3 (at_ p) = s.slot zeroDetails 3 (at_ p) := Chunks.Frame.slot h3
    obtain ⟨s2, b2, g1, g2, g3, g4, g5, g6, g7⟩ := ih hnd' s1 b1 (by rw [hsl]; exact hs) hlp
      (fun j hj => Chunks.Frame.sub h3 (by rintro rfl; exact hil hj) (hsub j (List.mem_cons_of_mem _ hj)))
    refine ⟨s2, b2, e.trans g1, ?_, ?_, ?_, g5.trans hsl, g6, h3.widen.trans g7⟩
    · rw [g2, h1, List.any_cons, Bool.or_assoc]
    · intro j hj
      by_cases hji : j = i
      · subst hji
        exact g4 j hil _ h2
      · have hj' : j ∈ l := by simpa [hji] using hj
        exact g3 j hj'
    · intro j hj u hu
      have hji : j ≠ i := by rintro rfl; exact hj (List.mem_cons_self ..)
      exact g4 j (fun h => hj (List.mem_cons_of_mem _ h)) u (Chunks.Frame.sub h3 hji hu)

theorem recPrune_spec (fuel : Nat) : ∀ (t : WTree) (k : Nat) p, t.DepthLe k → k < fuel → PruneCall (recPrune fuel) p t := by
  induction fuel with
  | zero => intro t k p _ h; omega
  | succ fuel ih =>
    intro t k p hk hfuel s hs hl
    have hrec : t.hasChildrenArray = true → ∀ i, PruneCall (recPrune fuel) (p ++ [i]) (t.child i) := by
      intro ha i
      have hpos := hk.pos (by rintro rfl; simp [NTree.hasChildrenArray] at ha)
      exact ih (t.child i) (k - 1) _ (hk.child' i) (by omega)
    have hslot := hs.slot
    obtain ⟨s', b', h1, h2, h3, -, h5, h6, h7⟩ := pruneChildren_spec hrec (List.finRange (2 ^ 3)) (List.nodup_finRange _) s
      false (by rw [hslot]) hl (fun j _ => hs.child j)
    rw [Bool.false_or] at h2
    have harr : b' = (WTree.recPrune t).hasChildrenArray := by
      rw [h2]
      cases t with
      | nil => decide +kernel
      | leaf a =>
        have : ∀ j, WTree.keepChild (WTree.recPrune ((NTree.leaf a : WTree).child j)) = false := fun j => rfl
        simp only [this]
        rfl
      | node a ch =>
        rw [WTree.recPrune]
        simp only [NTree.child_node]
        split
        · rename_i hx; rw [hx]; rfl
        · rename_i hx
          cases hy : (List.finRange (2 ^ 3)).any fun j => WTree.keepChild (WTree.recPrune (ch j)) with
          | false => rfl
          | true => exact absurd hy hx
    have hdata : (WTree.recPrune t).data? = t.data? := by
      cases t with
      | nil => rfl
      | leaf a => rfl
      | node a ch => rw [WTree.recPrune]; split <;> rfl
    have hchild : ∀ j, (WTree.recPrune t).child j = keptChild (t.child j) := by
      intro j
      cases t with
      | nil => rfl
      | leaf a => rfl
      | node a ch =>
        rw [WTree.recPrune]
        split
        · rfl
        · rename_i hx
          have : WTree.keepChild (WTree.recPrune (ch j)) = false := by
            cases hy : WTree.keepChild (WTree.recPrune (ch j)) with
            | false => rfl
            | true => exact absurd (List.any_eq_true.2 ⟨j, List.mem_finRange j, hy⟩) hx
          unfold keptChild
          simp only [NTree.child_leaf, NTree.child_node, this]; rfl
    have hnil : (WTree.recPrune t).isNil = t.isNil := by
      have : ∀ u : WTree, u.isNil = !u.data?.isSome := by intro u; cases u <;> rfl
      rw [this, this, hdata]
    refine ⟨s'.setHasAtLeastOneChild 3 (at_ p) b', ?_, ?_, h7.trans (setBit_frame hd3 hc3 hc3' _ _ _ _)⟩
    · rw [recPrune, h1]
    · apply Chunks.Sub.assemble
      · rw [setBit_slot_self hd3 hc3 hc3' _ _ h6, h5, hslot, harr, hdata]
      · intro h0
        have e : (s'.setHasAtLeastOneChild 3 (at_ p) b').live (at_ p) = s'.live (at_ p) := setBit_live s' _ _ b'
        rw [e, h6, hnil]
        have h8 := hs.root_live h0
        rwa [hl] at h8
      · intro j
        rw [hchild]
        exact setBit_sub_child hd3 hc3 hc3' _ (h3 j (List.mem_finRange j))

/-! ## Leaves -/

/-- The plain tree with a node wherever the chunked tree has one: siblings that share a chunk with an allocated node
exist too. `len` is the depth of the root of `t`, `k` the number of levels of nodes. -/
def fill : Nat → Nat → WTree → WTree
  | 0, _, _ => .nil
  | k + 1, len, t =>
    if t.hasChildrenArray then
      .node (WTree.details t) fun i => if (t.child i).isNil && (len + 1) % chunkHeight == 0 then .nil else fill k (len + 1) (t.child i)
    else .leaf (WTree.details t)

theorem fill_ne_nil (k len : Nat) (t : WTree) : fill (k + 1) len t ≠ .nil := by
  rw [fill]; split <;> simp

theorem fill_details (k len : Nat) (t : WTree) : WTree.details (fill (k + 1) len t) = WTree.details t := by
  rw [fill]; split <;> rfl

theorem fill_child (k len : Nat) (t : WTree) (i : Fin (2 ^ 3)) : NTree.child (fill (k + 1) len t) i =
    if t.hasChildrenArray = true ∧ ((len + 1) % chunkHeight = 0 → (t.child i).isNil = false) then fill k (len + 1) (t.child i) else .nil := by
  rw [fill]
  by_cases ha : t.hasChildrenArray = true
  · rw [if_pos ha, NTree.child_node]
    by_cases h0 : (len + 1) % chunkHeight = 0
    · by_cases h1 : (NTree.child t i).isNil = true
      · rw [if_pos (by simp [h0, h1]), if_neg (fun h => by rw [h.2 h0] at h1; cases h1)]
      · rw [if_neg (by simp [h1]), if_pos ⟨ha, fun _ => by simpa using h1⟩]
    · rw [if_neg (by simp [h0]), if_pos ⟨ha, fun h => absurd h h0⟩]
  · rw [if_neg ha, if_neg (fun h => ha h.1)]; rfl

theorem fill_depth (k len : Nat) (t : WTree) : WTree.DepthLe k (fill k len t) := by
  induction k generalizing len t with
  | zero => rfl
  | succ k ih =>
    intro i
    rw [fill_child]
    split
    · exact ih _ _
    · exact WTree.DepthLe.nil _

theorem fill_getValue (k len : Nat) (t : WTree) (hk : WTree.DepthLe k t) (v : ℚ) (q : List (Fin (2 ^ 3))) :
    WTree.getValue (fill k len t) v q = WTree.getValue t v q := by
  induction k generalizing len t v q with
  | zero => have : t = .nil := hk; subst this; rfl
  | succ k ih =>
    cases q with
    | nil => rw [WTree.getValue_nil_path, WTree.getValue_nil_path]
    | cons i q =>
      rw [WTree.getValue_cons _ (fill_ne_nil _ _ _), fill_details, fill_child]
      by_cases ht : t = .nil
      · subst ht
        rw [if_neg (by simp [NTree.hasChildrenArray]), WTree.getValue_nil, WTree.getValue_nil]
        exact bwd_single_const v i
      · rw [WTree.getValue_cons _ ht]
        split
        · exact ih _ _ (hk i) _ _
        · next hx =>
          have : t.child i = .nil := by
            by_contra hn
            exact hx ⟨by cases t <;> simp_all [NTree.hasChildrenArray], fun _ => NTree.isNil_false.2 hn⟩
          rw [this]

theorem mapM_some {α β : Type} (l : List α) (f : α → Option β) (g : α → β) (h : ∀ a ∈ l, f a = some (g a)) :
    l.mapM f = some (l.map g) := by
  induction l with
  | nil => rfl
  | cons a l ih =>
    rw [List.mapM_cons, h a List.mem_cons_self, ih (fun b hb => h b (List.mem_cons_of_mem _ hb))]
    rfl

theorem leaves_spec (enter : Int → Bool) (he : enter 0 = false) (fuel : Nat) : ∀ (k : Nat) (s : WChunks) p (t : WTree) (n : NdtreeIndex 3) (v : ℚ),
    k + 1 < fuel → n.height = k + 1 → Sub s p t → leaves enter fuel s (at_ p) n v = some (WTree.leaves enter (fill (k + 1) p.length t) n v) := by
  induction fuel with
  | zero => intro k s p t n v h; omega
  | succ fuel ih =>
    intro k s p t n v hfuel hn hs
    obtain ⟨l, -, -, -⟩ := WTree.leaves_eq enter (fill (k + 1) p.length t) (fill_ne_nil _ _ _) n v
    have hlen : ∀ i : Fin (2 ^ 3), (ofPath 3 chunkHeight (p ++ [i])).depth = (p.length + 1) % chunkHeight := by
      intro i; rw [ChunkNode.ofPath_depth hc3, List.length_append]; rfl
    have hg : ∀ i, s.getChild 3 chunkHeight (at_ p) i =
        if t.hasChildrenArray = true ∧ ((p.length + 1) % chunkHeight = 0 → (t.child i).isNil = false) then some (at_ (p ++ [i])) else none := by
      intro i
      have := Chunks.Sub.getChild hs i
      rw [hlen] at this
      exact this
    have hex : ∀ i, ((s.getChild 3 chunkHeight (at_ p) i).isSome && enter (n.height - 1))
        = (!((NTree.child (fill (k + 1) p.length t) i).isNil) && enter (n.height - 1)) := by
      intro i
      rw [hg, fill_child]
      split
      · cases k with
        | zero =>
          have : n.height - 1 = 0 := by omega
          rw [this, he, Bool.and_false, Bool.and_false]
        | succ k =>
          have := fill_ne_nil k (p.length + 1) (t.child i)
          rw [(NTree.isNil_false).2 this]; rfl
      · rfl
    rw [leaves]
    rw [mapM_some _ _ (fun i => if !((NTree.child (fill (k + 1) p.length t) i).isNil) && enter (n.height - 1) then
          WTree.leaves enter (NTree.child (fill (k + 1) p.length t) i) (n.computeChildIndex i.val)
            (backward 3 ⟨v, WTree.details t⟩ i) else [])]
    · dsimp only
      simp only [hex, hs.details]
      have hnn := fill_ne_nil k p.length t
      have hdd := fill_details k p.length t
      rw [List.flatMap_def.symm]
      generalize fill (k + 1) p.length t = T at *
      cases T with
      | nil => exact absurd rfl hnn
      | leaf a =>
        have : a = WTree.details t := hdd
        subst this
        simp only [WTree.leaves, NTree.child, NTree.isNil, Bool.not_true, Bool.false_and, Bool.false_eq_true, if_false]
        rw [List.map_eq_flatMap]
        have : (List.flatMap (fun _ : Fin (2 ^ 3) => ([] : List (NdtreeIndex 3 × ℚ))) (List.finRange (2 ^ 3)).reverse) = [] := by
          rw [List.flatMap_eq_nil_iff]; intros; rfl
        rw [this, List.append_nil]
      | node a ch =>
        have : a = WTree.details t := hdd
        subst this
        simp only [WTree.leaves]
        rfl
    · intro i _
      have hx := hex i
      rw [hs.details]
      rw [← hx]
      have hgi := hg i
      have hci := fill_child k p.length t i
      by_cases hc : t.hasChildrenArray = true ∧ ((p.length + 1) % chunkHeight = 0 → (t.child i).isNil = false)
      · rw [if_pos hc] at hgi hci
        rw [hgi, hci]
        dsimp only
        simp only [Option.isSome_some, Bool.true_and]
        cases hen : enter (n.height - 1) with
        | false => rfl
        | true =>
          simp only [if_true]
          cases k with
          | zero =>
            have : n.height - 1 = 0 := by omega
            rw [this, he] at hen; cases hen
          | succ k =>
            have := ih k s (p ++ [i]) (t.child i) (n.computeChildIndex i.val) (backward 3 ⟨v, WTree.details t⟩ i) (by omega)
              (by simp only [NdtreeIndex.computeChildIndex]; omega) (hs.child i)
            rw [List.length_append] at this
            exact this
      · rw [if_neg hc] at hgi
        rw [hgi]; rfl

end WChunks
end Wavemap
