import Verif.Model.MapMsg
import Verif.Lemmas.IoHashed
/-! Helper lemmas for C39: octrees in messages. -/
namespace Wavemap
open Haar NTree

theorem make_copy (a : Details 3) (b : Nat) : (NodeMsg.make a b).copyTo.1 = a := by
  funext i
  simp only [NodeMsg.make, NodeMsg.copyTo]
  rw [dif_pos i.isLt]

/-- The message of one node with all its children. -/
def nodeMsg (t : WTree) : NodeMsg := .make t.details (childBitset ((List.finRange (2 ^ 3)).filter fun c => t.hasChild c))

namespace WTree

/-- The messages of an octree, node before children, children in order. -/
def nodeMsgs : WTree → List NodeMsg
  | .nil => []
  | .leaf a => [nodeMsg (.leaf a)]
  | .node a ch => nodeMsg (.node a ch) :: (List.finRange (2 ^ 3)).flatMap fun c => nodeMsgs (ch c)

theorem nodeMsgs_eq (t : WTree) (ht : t ≠ .nil) :
    nodeMsgs t = nodeMsg t :: ((List.finRange (2 ^ 3)).filter fun c => t.hasChild c).flatMap fun c => nodeMsgs (NTree.child t c) := by
  cases t with
  | nil => exact absurd rfl ht
  | leaf a =>
    have : (List.finRange (2 ^ 3)).filter (fun c => (NTree.leaf a : WTree).hasChild c) = [] := by
      rw [List.filter_eq_nil_iff]; intro c _; simp [hasChild, NTree.isNil]
    rw [this]; simp [nodeMsgs]
  | node a ch =>
    rw [nodeMsgs]
    congr 1
    rw [flatMap_filter_nil]
    · rfl
    · intro c _ hc
      simp only [hasChild, Bool.not_eq_false', NTree.child_node] at hc
      rw [NTree.child_node, NTree.isNil_iff.1 hc]; rfl

theorem prePaths_nodeMsgs (R t : WTree) (p : List (Fin (2 ^ 3))) (h : R.descend p = t) :
    (prePaths t p).map (fun q => nodeMsg (R.descend q)) = nodeMsgs t := by
  induction t generalizing p with
  | nil => rfl
  | leaf a => simp [prePaths, nodeMsgs, h]
  | node a ch ih =>
    rw [prePaths, nodeMsgs, List.map_cons, h, List.map_flatMap]
    congr 1
    apply List.flatMap_congr
    intro c _
    apply ih
    rw [NTree.descend_append, h]; rfl

end WTree

theorem dropSat_nodeMsgs (lo hi : ℚ) (t : WTree) (ht : t ≠ .nil) (s : ℚ) :
    (WTree.dropSat lo hi t s).nodeMsgs =
      NodeMsg.make t.details (childBitset (keptChildren lo hi (backward 3 ⟨s, t.details⟩) t.hasChild)) ::
        (keptChildren lo hi (backward 3 ⟨s, t.details⟩) t.hasChild).flatMap fun c =>
          (WTree.dropSat lo hi (NTree.child t c) (backward 3 ⟨s, t.details⟩ c)).nodeMsgs := by
  have hne : WTree.dropSat lo hi t s ≠ .nil := by
    rw [← isNil_false_iff, WTree.dropSat_isNil, isNil_false_iff]; exact ht
  rw [WTree.nodeMsgs_eq _ hne, kept_eq]
  congr 1
  · unfold nodeMsg; rw [WTree.dropSat_details]
  · apply List.flatMap_congr
    intro c hc
    have hk := hc
    rw [← kept_eq] at hk
    unfold keptChildren at hk
    rw [List.mem_filter] at hk
    have h := hk.2
    simp only [Bool.and_eq_true, Bool.not_eq_true', Bool.or_eq_false_iff, decide_eq_false_iff_not] at h
    rw [WTree.dropSat_child, if_neg (by rw [not_or]; exact h.1)]

theorem writeNodeMsgs_eq (lo hi : ℚ) (fuel : Nat) : ∀ (stack : List (ℚ × WTree)), (∀ e ∈ stack, e.2 ≠ .nil) →
    (stack.map fun e => e.2.numNodes).sum ≤ fuel →
    writeNodeMsgs lo hi fuel stack = some (stack.flatMap fun e => (WTree.dropSat lo hi e.2 e.1).nodeMsgs) := by
  induction fuel with
  | zero =>
    intro stack hs hf
    cases stack with
    | nil => rfl
    | cons e stack =>
      have := numNodes_children e.2 (fun _ => false) (hs e List.mem_cons_self)
      simp only [List.map_cons, List.sum_cons] at hf
      omega
  | succ fuel ih =>
    intro stack hs hf
    match stack with
    | [] => rfl
    | (s, t) :: stack =>
      have ht : t ≠ .nil := hs _ List.mem_cons_self
      rw [writeNodeMsgs]
      rw [ih]
      · show some _ = _
        rw [List.flatMap_append, List.flatMap_cons, List.flatMap_map, dropSat_nodeMsgs lo hi t ht s, List.cons_append]
      · intro e he
        rw [List.mem_append] at he
        rcases he with he | he
        · rw [List.mem_map] at he
          obtain ⟨c, hc, rfl⟩ := he
          unfold keptChildren at hc
          rw [List.mem_filter] at hc
          have h := hc.2
          simp only [Bool.and_eq_true, hasChild, Bool.not_eq_true'] at h
          exact isNil_false_iff.1 h.2
        · exact hs e (List.mem_cons_of_mem _ he)
      · simp only [List.map_cons, List.sum_cons] at hf
        rw [List.map_append, List.map_map, List.sum_append]
        have := numNodes_children t (fun c =>
          !(decide (backward 3 ⟨s, t.details⟩ c < lo + ioNoise) || decide (hi - ioNoise < backward 3 ⟨s, t.details⟩ c)) && t.hasChild c) ht
        unfold keptChildren
        have e2 : ∀ l : List (Fin (2 ^ 3)), List.map ((fun e : ℚ × WTree => e.2.numNodes) ∘ fun c => (backward 3 ⟨s, t.details⟩ c, NTree.child t c)) l
          = l.map fun c => (NTree.child t c).numNodes := fun l => rfl
        rw [e2]
        omega

theorem readNodeMsgs_children (a : Details 3) (ch : Fin (2 ^ 3) → WTree)
    (ih : ∀ c, ch c ≠ .nil → ∀ p st (t : WTree) rest, (∃ b, t.descend p = .leaf b) →
      readNodeMsgs ((ch c).nodeMsgs ++ rest) (p :: st) t =
        readNodeMsgs rest st (modifyAt (fun _ => (ch c).norm) t p)) :
    ∀ (l : List (Fin (2 ^ 3))), l.Nodup → (∀ c ∈ l, ch c ≠ .nil) → ∀ (g : Fin (2 ^ 3) → WTree), (∀ c ∈ l, ∃ b, g c = .leaf b) →
      ∀ p st (t : WTree) rest, t.descend p ≠ .nil →
      readNodeMsgs ((l.flatMap fun c => (ch c).nodeMsgs) ++ rest) (l.map (fun c => p ++ [c]) ++ st)
          (modifyAt (fun _ => .node a g) t p) =
        readNodeMsgs rest st (modifyAt (fun _ => .node a fun c => if c ∈ l then (ch c).norm else g c) t p) := by
  intro l
  induction l with
  | nil =>
    intro _ _ g _ p st t rest _
    simp
  | cons x l ihl =>
    intro hnd hne g hg p st t rest ht
    rw [List.nodup_cons] at hnd
    obtain ⟨b, hb⟩ := hg x List.mem_cons_self
    rw [List.map_cons, List.flatMap_cons, List.cons_append, List.append_assoc]
    rw [ih x (hne x List.mem_cons_self)]
    · have hcomp : modifyAt (fun _ => (ch x).norm) (modifyAt (fun _ => .node a g) t p) (p ++ [x])
          = modifyAt (fun _ => .node a fun c => if c = x then (ch x).norm else g c) t p := by
        rw [modifyAt_append, modifyAt_modifyAt _ _ (fun _ _ => by simp)]
        congr 1
        funext s
        simp only [modifyAt]
        congr 1
        funext j
        by_cases hj : j = x
        · rw [if_pos hj, if_pos hj, hb, modifyAt_nil _ _ (by simp)]
        · rw [if_neg hj, if_neg hj]
      rw [hcomp, ihl hnd.2 (fun c hc => hne c (List.mem_cons_of_mem _ hc))]
      · congr 2
        funext s
        congr 1
        funext c
        by_cases hc : c = x
        · subst hc; rw [if_neg hnd.1, if_pos rfl, if_pos List.mem_cons_self]
        · simp only [List.mem_cons, hc, false_or, if_false]
      · intro c hc
        have : c ≠ x := by rintro rfl; exact hnd.1 hc
        rw [if_neg this]
        exact hg c (List.mem_cons_of_mem _ hc)
      · exact ht
    · refine ⟨b, ?_⟩
      rw [modifyAt_descend, isNil_false_iff.2 ht]
      simp only [Bool.false_eq_true, if_false]
      exact hb
/-- The reader, started at a fresh node, rebuilds the tree that was written. -/
theorem readNodeMsgs_nodeMsgs (u : WTree) (hu : u ≠ .nil) : ∀ p st (t : WTree) rest, (∃ b, t.descend p = .leaf b) →
    readNodeMsgs (u.nodeMsgs ++ rest) (p :: st) t =
      readNodeMsgs rest st (modifyAt (fun _ => u.norm) t p) := by
  induction u with
  | nil => exact absurd rfl hu
  | leaf a =>
    intro p st t rest ⟨b, hb⟩
    have hfl : (List.finRange (2 ^ 3)).filter (fun c => (NTree.leaf a : WTree).hasChild c) = [] := by
      rw [List.filter_eq_nil_iff]; intro c _; simp [hasChild, NTree.isNil]
    have hmsgs : WTree.nodeMsgs (NTree.leaf a) = [NodeMsg.make a (childBitset [])] := by
      simp only [WTree.nodeMsgs, nodeMsg, hfl]; rfl
    rw [hmsgs, List.cons_append, List.nil_append, readNodeMsgs, make_copy]
    have : announced (NodeMsg.make a (childBitset [])).bitset = [] := by
      show announced (childBitset []) = []; decide
    rw [this]
    simp only [List.map_nil, List.nil_append]
    congr 1
    apply modifyAt_congr
    rw [hb]; rfl
  | node a ch ih =>
    intro p st t rest ⟨b, hb⟩
    rw [WTree.nodeMsgs_eq _ (by simp), List.cons_append, readNodeMsgs]
    unfold nodeMsg
    rw [make_copy, show ∀ (d : Details 3) (n : Nat), (NodeMsg.make d n).bitset = n from fun _ _ => rfl]
    rw [announced_childBitset]
    generalize hcs : (List.finRange (2 ^ 3)).filter (fun c => (NTree.node a ch : WTree).hasChild c) = cs
    have hmem : ∀ c, c ∈ cs ↔ ch c ≠ .nil := by
      intro c
      rw [← hcs, List.mem_filter]
      simp only [hasChild, child_node, Bool.not_eq_true', isNil_false_iff, List.mem_finRange, true_and]
    have hnd : cs.Nodup := by rw [← hcs]; exact (List.nodup_finRange _).filter _
    have ht : t.descend p ≠ .nil := by rw [hb]; simp
    have hskel : modifyAt (fun n => allocChildren cs (NTree.setData n a)) t p
        = modifyAt (fun _ => allocChildren cs (.leaf a)) t p := by
      apply modifyAt_congr
      rw [hb]; rfl
    show readNodeMsgs _ _ (modifyAt (fun n => allocChildren cs (NTree.setData n (WTree.details (NTree.node a ch)))) t p) = _
    rw [show WTree.details (NTree.node a ch) = a from rfl, hskel, allocChildren_leaf]
    have hnorm : WTree.norm (.node a ch) = if cs = [] then .leaf a else .node a fun c => WTree.norm (ch c) := by
      rw [WTree.norm]
      by_cases he : cs = []
      · rw [if_pos he, if_neg]
        simp only [List.any_eq_true, not_exists, not_and, Bool.not_eq_true', Bool.not_eq_false]
        intro c _
        by_contra hc
        rw [Bool.not_eq_true] at hc
        have := (hmem c).2 (isNil_false_iff.1 hc)
        rw [he] at this; cases this
      · rw [if_neg he, if_pos]
        obtain ⟨c, hc⟩ := List.exists_mem_of_ne_nil _ he
        rw [List.any_eq_true]
        exact ⟨c, List.mem_finRange c, by rw [isNil_false_iff.2 ((hmem c).1 hc)]; rfl⟩
    by_cases he : cs = []
    · rw [hnorm, if_pos he, if_pos he, he]
      simp
    · rw [hnorm, if_neg he, if_neg he]
      have := readNodeMsgs_children a ch (fun c hc => ih c hc) cs hnd (fun c hc => (hmem c).1 hc)
        (fun c => if c ∈ cs then .leaf zeroDetails else .nil) (fun c hc => ⟨zeroDetails, by rw [if_pos hc]⟩) p st t rest ht
      simp only [child_node]
      rw [this]
      congr 2
      funext s
      congr 1
      funext c
      by_cases hc : c ∈ cs
      · rw [if_pos hc]
      · rw [if_neg hc, if_neg hc]
        have : ch c = .nil := by by_contra h; exact hc ((hmem c).2 h)
        rw [this]; rfl
/-- Reading a written octree into a fresh node. -/
theorem readNodeMsgs_roundtrip (u : WTree) (hu : u ≠ .nil) (b : Details 3) :
    readNodeMsgs u.nodeMsgs [[]] (.leaf b) = some u.norm := by
  have h := readNodeMsgs_nodeMsgs u hu [] [] (.leaf b) [] ⟨b, rfl⟩
  rw [List.append_nil, modifyAt_nil _ _ (by simp)] at h
  exact h

namespace HashedWaveletOctree

/-- The message of a block. -/
def entryMsg (config : HashedWaveletOctreeConfig) (k : Index 3) (b : WaveletBlock) : BlockMsg :=
  ⟨k, b.rootScale, (WTree.dropSat config.minLogOdds config.maxLogOdds b.root b.rootScale).nodeMsgs⟩

theorem blockMsg_eq (config : HashedWaveletOctreeConfig) (k : Index 3) (b : WaveletBlock) (he : b.root ≠ .nil) :
    blockMsg config k b = some (entryMsg config k b) := by
  unfold blockMsg
  rw [writeNodeMsgs_eq]
  · simp [entryMsg]
  · intro x hx
    rw [List.mem_singleton] at hx
    subst hx; exact he
  · simp

end HashedWaveletOctree

namespace WChunks

theorem writeChunkNodeMsgs_eq (lo hi : ℚ) (s : WChunks) (fuel : Nat) :
    ∀ (stack : List (ℚ × List (Fin (2 ^ 3)) × WTree × Nat)), (∀ e ∈ stack, Sub s e.2.1 e.2.2.1 ∧ WTree.DepthLe e.2.2.2 e.2.2.1) →
    writeChunkNodeMsgs lo hi s fuel (stack.map fun e => (e.1, at_ e.2.1)) =
      writeNodeMsgs lo hi fuel (stack.map fun e => (e.1, fill (e.2.2.2 + 1) e.2.1.length e.2.2.1)) := by
  induction fuel with
  | zero => intro stack _; cases stack <;> rfl
  | succ fuel ih =>
    intro stack hst
    match stack with
    | [] => rfl
    | (v, p, t, k) :: stack =>
      obtain ⟨hs, hk⟩ := hst _ List.mem_cons_self
      dsimp only at hs hk
      rw [List.map_cons, List.map_cons, writeChunkNodeMsgs, writeNodeMsgs]
      dsimp only
      rw [hs.details, fill_details]
      have hhas : (fun c => (s.getChild 3 chunkHeight (at_ p) c).isSome) = fun c => NTree.hasChild (fill (k + 1) p.length t) c := by
        funext c
        unfold NTree.hasChild
        rcases getChild_fill hs hk c with ⟨h1, _, h2⟩ | ⟨h1, h2⟩
        · rw [h1, h2, (NTree.isNil_false_iff).2 (fill_ne_nil _ _ _)]; rfl
        · rw [h1, h2]; rfl
      rw [hhas]
      generalize hkept : keptChildren lo hi (backward 3 ⟨v, WTree.details t⟩) (NTree.hasChild (fill (k + 1) p.length t)) = kept
      have hmem : ∀ c ∈ kept, s.getChild 3 chunkHeight (at_ p) c = some (at_ (p ++ [c])) ∧
          NTree.child (fill (k + 1) p.length t) c = fill (k - 1 + 1) (p ++ [c]).length (NTree.child t c) := by
        intro c hc
        rcases getChild_fill hs hk c with ⟨h1, _, h2⟩ | ⟨h1, h2⟩
        · exact ⟨h1, h2⟩
        · rw [← hkept] at hc
          unfold keptChildren at hc
          rw [List.mem_filter] at hc
          have := hc.2
          unfold NTree.hasChild at this
          rw [h2] at this
          simp [NTree.isNil] at this
      have e1 : kept.filterMap (fun c => (s.getChild 3 chunkHeight (at_ p) c).map fun r' => (backward 3 ⟨v, WTree.details t⟩ c, r'))
          = (kept.map fun c => ((backward 3 ⟨v, WTree.details t⟩ c, p ++ [c], NTree.child t c, k - 1) :
              ℚ × List (Fin (2 ^ 3)) × WTree × Nat)).map fun e => (e.1, at_ e.2.1) := by
        rw [List.map_map]
        clear hkept
        induction kept with
        | nil => rfl
        | cons c kept ihk =>
          rw [List.filterMap_cons_some (b := (backward 3 ⟨v, WTree.details t⟩ c, at_ (p ++ [c]))) (by rw [(hmem c List.mem_cons_self).1]; rfl),
            List.map_cons, ihk fun x hx => hmem x (List.mem_cons_of_mem _ hx)]
          rfl
      have e2 : kept.map (fun c => (backward 3 ⟨v, WTree.details t⟩ c, NTree.child (fill (k + 1) p.length t) c))
          = (kept.map fun c => ((backward 3 ⟨v, WTree.details t⟩ c, p ++ [c], NTree.child t c, k - 1) :
              ℚ × List (Fin (2 ^ 3)) × WTree × Nat)).map fun e => (e.1, fill (e.2.2.2 + 1) e.2.1.length e.2.2.1) := by
        rw [List.map_map]
        apply List.map_congr_left
        intro c hc
        simp only [Function.comp]
        rw [(hmem c hc).2]
      rw [e1, e2, ← List.map_append, ← List.map_append, ih]
      intro e he
      rw [List.mem_append] at he
      rcases he with he | he
      · rw [List.mem_map] at he
        obtain ⟨c, _, rfl⟩ := he
        exact ⟨hs.child c, hk.child' c⟩
      · exact hst e (List.mem_cons_of_mem _ he)

end WChunks
end Wavemap
