import Verif.Lemmas.MapMsg
/-! Helper lemmas for C39: messages of hashed wavelet octrees and incremental publishing. -/
namespace Wavemap
open Haar NTree

namespace HashedWaveletOctree

/-! ## Writing a message -/

theorem toMsg_eq (m : HashedWaveletOctree) (hm : ∀ k b, m.blocks.getBlock k = some b → b.root ≠ .nil) (ks : List (Index 3)) :
    m.toMsg ks = some ⟨m.config.minCellWidth, m.config.minLogOdds, m.config.maxLogOdds, m.config.treeHeight, m.blocks.keys,
      (ks.filterMap (fun k => (m.blocks.getBlock k).map fun b => (k, b))).map fun e => entryMsg m.config e.1 e.2⟩ := by
  unfold toMsg
  rw [WChunks.mapM_some _ (fun e : Index 3 × WaveletBlock => blockMsg m.config e.1 e.2) (fun e => entryMsg m.config e.1 e.2)]
  · rfl
  · intro e he
    rw [List.mem_filterMap] at he
    obtain ⟨k, _, hk⟩ := he
    rw [Option.map_eq_some_iff] at hk
    obtain ⟨b, hb, rfl⟩ := hk
    exact blockMsg_eq _ _ _ (hm k b hb)

/-! ## Reading a message -/

/-- A map object a receiver can hold. -/
structure RecvOk (m : HashedWaveletOctree) : Prop where
  height : m.config.treeHeight ≤ maxWaveletTreeHeight
  nodup : m.blocks.keys.Nodup
  blocks : ∀ k b, m.blocks.getBlock k = some b → b.treeHeight = m.config.treeHeight

theorem applyBlocks_spec (now : ℚ) (config : HashedWaveletOctreeConfig) :
    ∀ (l : List (Index 3 × WaveletBlock)) (m : HashedWaveletOctree), m.RecvOk → m.config.treeHeight = config.treeHeight →
    (l.map Prod.fst).Nodup → (∀ e ∈ l, e.2.root ≠ .nil) →
    ∃ m', applyBlocks now (l.map fun e => entryMsg config e.1 e.2) m = .done m' ∧ m'.config = m.config ∧ m'.RecvOk ∧
      (∀ k, k ∉ l.map Prod.fst → m'.blocks.getBlock k = m.blocks.getBlock k) ∧
      ∀ e ∈ l, ∃ b', m'.blocks.getBlock e.1 = some b' ∧ Received config e.2 b' := by
  intro l
  induction l with
  | nil => intro m hm _ _ _; exact ⟨m, rfl, rfl, hm, fun _ _ => rfl, fun e he => by cases he⟩
  | cons e l ih =>
    intro m hm hc hnd hroot
    rw [List.map_cons, List.nodup_cons] at hnd
    have hr := hroot e List.mem_cons_self
    have hne : WTree.dropSat config.minLogOdds config.maxLogOdds e.2.root e.2.rootScale ≠ .nil := by
      rw [← isNil_false_iff, WTree.dropSat_isNil, isNil_false_iff]; exact hr
    obtain ⟨b, hb, hbh⟩ : ∃ b, (m.getOrAllocateBlock e.1 now).blocks.getBlock e.1 = some b ∧ b.treeHeight = m.config.treeHeight ∧
        (m.blocks.hasBlock e.1 = true ∨ b.root = .leaf zeroDetails) := by
      refine ⟨_, by simp only [getOrAllocateBlock, SpatialHash.getBlock_getOrAllocate, if_true]; rfl, ?_⟩
      unfold SpatialHash.hasBlock
      cases e' : m.blocks.getBlock e.1 with
      | none => exact ⟨rfl, Or.inr rfl⟩
      | some b => exact ⟨hm.blocks _ _ e', Or.inl rfl⟩
    obtain ⟨B, hB⟩ : ∃ B, B = (if m.blocks.hasBlock e.1 = true then b.clear now else b) := ⟨_, rfl⟩
    have hBr : B.root = .leaf zeroDetails := by
      rw [hB]
      split
      · rfl
      · next h => exact (hbh.2.resolve_left h)
    have hBh : B.treeHeight = m.config.treeHeight := by
      rw [hB]
      split
      · exact hbh.1
      · exact hbh.1
    obtain ⟨G, hG⟩ : ∃ G : WaveletBlock, G = { B with
      rootScale := e.2.rootScale, root := (WTree.dropSat config.minLogOdds config.maxLogOdds e.2.root e.2.rootScale).norm } := ⟨_, rfl⟩
    have hget : ∀ k, ((m.getOrAllocateBlock e.1 now).blocks.modifyBlock e.1 fun _ => G).getBlock k
        = if k = e.1 then some G else m.blocks.getBlock k := by
      intro k
      rw [SpatialHash.getBlock_modify]
      by_cases hk : k = e.1
      · rw [if_pos hk, if_pos hk, hb]; rfl
      · rw [if_neg hk, if_neg hk]
        simp only [getOrAllocateBlock, SpatialHash.getBlock_getOrAllocate, if_neg hk]
    have hok : RecvOk { (m.getOrAllocateBlock e.1 now) with
        blocks := (m.getOrAllocateBlock e.1 now).blocks.modifyBlock e.1 fun _ => G } := by
      refine ⟨hm.height, ?_, fun k b' hk => ?_⟩
      · dsimp only
        rw [SpatialHash.keys_modify]
        exact SpatialHash.keys_getOrAllocate _ _ _ hm.nodup
      · dsimp only at hk
        rw [hget] at hk
        split at hk
        · cases hk; rw [hG]; exact hBh
        · exact hm.blocks _ _ hk
    obtain ⟨m', h1, h2, h3, h4, h5⟩ := ih _ hok hc hnd.2 (fun x hx => hroot x (List.mem_cons_of_mem _ hx))
    refine ⟨m', ?_, h2, h3, ?_, ?_⟩
    · rw [List.map_cons]
      have hst : ∀ o s ns es, applyBlocks now (⟨o, s, ns⟩ :: es) m = if m.config.treeHeight ≤ maxWaveletTreeHeight then
          match (m.getOrAllocateBlock o now).blocks.getBlock o with
          | none => .undefined
          | some b =>
            match readNodeMsgs ns [[]] (if m.blocks.hasBlock o then b.clear now else b).root with
            | none => .undefined
            | some t => applyBlocks now es { (m.getOrAllocateBlock o now) with
                blocks := (m.getOrAllocateBlock o now).blocks.modifyBlock o fun _ =>
                  { (if m.blocks.hasBlock o then b.clear now else b) with rootScale := s, root := t } }
          else .abort := fun _ _ _ _ => rfl
      rw [show entryMsg config e.1 e.2 = ⟨e.1, e.2.rootScale, (WTree.dropSat config.minLogOdds config.maxLogOdds e.2.root e.2.rootScale).nodeMsgs⟩ from rfl,
        hst, if_pos hm.height, hb]
      dsimp only
      rw [← hB, hBr, readNodeMsgs_roundtrip _ hne]
      dsimp only
      rw [← hG]
      exact h1
    · intro k hk
      rw [List.map_cons, List.mem_cons, not_or] at hk
      rw [h4 k hk.2]
      dsimp only
      rw [hget, if_neg hk.1]
    · intro x hx
      rcases List.mem_cons.1 hx with rfl | hx
      · refine ⟨G, ?_, ?_⟩
        · rw [h4 _ hnd.1]
          dsimp only
          rw [hget, if_pos rfl]
        · rw [hG]
          exact ⟨hBh.trans hc, rfl, rfl⟩
      · exact h5 x hx

/-- The receiver's settings. -/
def recvConfig (c : HashedWaveletOctreeConfig) : HashedWaveletOctreeConfig := { c with onlyPruneBlocksIfUnusedFor := 5 }

theorem sameConfig_iff (a b : HashedWaveletOctreeConfig) : sameConfig a b = true ↔ a = b := by
  cases a; cases b
  simp only [sameConfig, Bool.and_eq_true, decide_eq_true_eq, HashedWaveletOctreeConfig.mk.injEq, and_assoc]

/-- The blocks of its previous map that a receiver can keep. -/
def keptBlock (c : HashedWaveletOctreeConfig) (old : Option HashedWaveletOctree) (k : Index 3) : Option WaveletBlock :=
  match old with
  | none => none
  | some o => if sameConfig o.config (recvConfig c) then o.blocks.getBlock k else none

theorem applyMsg_spec (now : ℚ) (m : HashedWaveletOctree) (hv : m.config.isValid = true) (hH : m.config.treeHeight ≤ 20)
    (hm : ∀ k b, m.blocks.getBlock k = some b → b.root ≠ .nil) (ks : List (Index 3)) (hks : ks.Nodup)
    (old : Option HashedWaveletOctree) (hold : ∀ o, old = some o → o.RecvOk) :
    ∃ msg R, m.toMsg ks = some msg ∧ applyMsg now msg old = .done R ∧ R.config = recvConfig m.config ∧ R.RecvOk ∧
      ∀ k, (m.blocks.getBlock k = none ∧ R.blocks.getBlock k = none) ∨
        ∃ b, m.blocks.getBlock k = some b ∧
          ((k ∈ ks ∧ ∃ b', R.blocks.getBlock k = some b' ∧ Received m.config b b') ∨
            (k ∉ ks ∧ R.blocks.getBlock k = keptBlock m.config old k)) := by
  have htm := toMsg_eq m hm ks
  obtain ⟨l, hl⟩ : ∃ l, l = ks.filterMap (fun k => (m.blocks.getBlock k).map fun b => (k, b)) := ⟨_, rfl⟩
  have hmem : ∀ e, e ∈ l ↔ e.1 ∈ ks ∧ m.blocks.getBlock e.1 = some e.2 := by
    rintro ⟨k, b⟩
    rw [hl, List.mem_filterMap]
    constructor
    · rintro ⟨k', h1, h2⟩
      rw [Option.map_eq_some_iff] at h2
      obtain ⟨b', h3, h4⟩ := h2
      cases h4
      exact ⟨h1, h3⟩
    · rintro ⟨h1, h2⟩
      exact ⟨k, h1, by dsimp only at h2; rw [h2]; rfl⟩
  have hlk : l.map Prod.fst = ks.filter fun k => (m.blocks.getBlock k).isSome := by
    rw [hl]
    clear hmem hks hl htm
    induction ks with
    | nil => rfl
    | cons k ks ih =>
      rw [List.filterMap_cons, List.filter_cons]
      cases e : m.blocks.getBlock k with
      | none => simp [ih]
      | some b => simp [ih]
  have hnd : (l.map Prod.fst).Nodup := by rw [hlk]; exact hks.filter _
  have hroot : ∀ e ∈ l, e.2.root ≠ .nil := fun e he => hm e.1 e.2 ((hmem e).1 he).2
  have hin : ∀ k, k ∈ l.map Prod.fst ↔ k ∈ ks ∧ (m.blocks.getBlock k).isSome = true := by
    intro k; rw [hlk, List.mem_filter]
  -- the map the blocks are read into
  obtain ⟨S, hS1, hS2, hS3, hS4⟩ : ∃ S : HashedWaveletOctree,
      (∀ msg : HashedWaveletMsg, msgConfig msg = recvConfig m.config → msg.allocated = m.blocks.keys →
        applyMsg now msg old = applyBlocks now msg.blocks S) ∧
      S.config = recvConfig m.config ∧ S.RecvOk ∧
      ∀ k, S.blocks.getBlock k = if k ∈ m.blocks.keys then keptBlock m.config old k else none := by
    have hnew : ∀ k, (create (recvConfig m.config)).blocks.getBlock k = none := fun k => rfl
    have hnewok : (create (recvConfig m.config)).RecvOk :=
      ⟨by show m.config.treeHeight ≤ 21; omega, by simp [create, SpatialHash.keys], fun k b h => by rw [hnew] at h; cases h⟩
    have hv' : (recvConfig m.config).isValid = true := hv
    cases old with
    | none =>
      refine ⟨create (recvConfig m.config), ?_, rfl, hnewok, fun k => ?_⟩
      · intro msg h1 h2; unfold applyMsg; rw [h1]; dsimp only; rw [if_pos hv']; rfl
      · rw [hnew]; unfold keptBlock; dsimp only; rw [ite_self]
    | some o =>
      by_cases hs : sameConfig o.config (recvConfig m.config) = true
      · have ho := hold o rfl
        refine ⟨o.eraseBlockIf fun k => !decide (k ∈ m.blocks.keys), ?_, (sameConfig_iff _ _).1 hs, ?_, fun k => ?_⟩
        · intro msg h1 h2; unfold applyMsg; rw [h1, h2]; dsimp only; rw [if_pos hs]; rfl
        · refine ⟨ho.height, SpatialHash.keys_eraseBlockIf o.blocks (fun k b => (b, !decide (k ∈ m.blocks.keys))) ho.nodup, fun k b hk => ?_⟩
          unfold eraseBlockIf at hk
          dsimp only at hk
          rw [SpatialHash.getBlock_eraseBlockIf _ ho.nodup, Option.bind_eq_some_iff] at hk
          obtain ⟨b', h1, h2⟩ := hk
          split at h2
          · cases h2
          · cases h2; exact ho.blocks k _ h1
        · unfold eraseBlockIf keptBlock
          dsimp only
          rw [SpatialHash.getBlock_eraseBlockIf _ ho.nodup, if_pos hs]
          by_cases hk : k ∈ m.blocks.keys
          · rw [if_pos hk]
            cases o.blocks.getBlock k with
            | none => rfl
            | some b => simp [hk]
          · rw [if_neg hk]
            cases o.blocks.getBlock k with
            | none => rfl
            | some b => simp [hk]
      · refine ⟨create (recvConfig m.config), ?_, rfl, hnewok, fun k => ?_⟩
        · intro msg h1 h2; unfold applyMsg; rw [h1]; dsimp only; rw [if_neg hs, if_pos hv']; rfl
        · rw [hnew]; unfold keptBlock; dsimp only; rw [if_neg hs, ite_self]
  obtain ⟨R, h1, h2, h3, h4, h5⟩ := applyBlocks_spec now m.config l S hS3 (by rw [hS2]; rfl) hnd hroot
  refine ⟨_, R, htm, ?_, h2.trans hS2, h3, fun k => ?_⟩
  · rw [hS1 _ (by unfold msgConfig recvConfig; rw [Int.toNat_natCast]; rfl) rfl, ← hl]
    exact h1
  · cases e : m.blocks.getBlock k with
    | none =>
      left
      refine ⟨rfl, ?_⟩
      rw [h4 k (by rw [hin, e]; simp), hS4, if_neg (SpatialHash.getBlock_eq_none.1 e)]
    | some b =>
      right
      refine ⟨b, rfl, ?_⟩
      by_cases hk : k ∈ ks
      · left
        exact ⟨hk, h5 (k, b) ((hmem (k, b)).2 ⟨hk, e⟩)⟩
      · right
        refine ⟨hk, ?_⟩
        have : k ∈ m.blocks.keys := by
          by_contra h
          rw [← SpatialHash.getBlock_eq_none, e] at h; cases h
        rw [h4 k (by rw [hin]; exact fun h => hk h.1), hS4, if_pos this]

/-! ## Publishing -/

theorem selectBlocks_spec (max : Nat) : ∀ (ks : List (Index 3)) (count : Nat) (m : HashedWaveletOctree), count < max →
    ks.Nodup → (∀ k ∈ ks, (m.blocks.getBlock k).isSome = true) →
    (selectBlocks max count ks m).1 = ks.take (max - count) ∧ (selectBlocks max count ks m).2.config = m.config ∧
    (selectBlocks max count ks m).2.blocks.keys = m.blocks.keys ∧
    ∀ k, (selectBlocks max count ks m).2.blocks.getBlock k =
      if k ∈ ks.take (max - count) then (m.blocks.getBlock k).map fun b => b.threshold else m.blocks.getBlock k := by
  intro ks
  induction ks with
  | nil => intro count m _ _ _; exact ⟨by simp [selectBlocks], rfl, rfl, fun k => by simp [selectBlocks]⟩
  | cons x ks ih =>
    intro count m hc hnd hex
    rw [List.nodup_cons] at hnd
    have hx := hex x List.mem_cons_self
    obtain ⟨M, hM⟩ : ∃ M : HashedWaveletOctree, M = { m with blocks := m.blocks.modifyBlock x fun b => b.threshold } := ⟨_, rfl⟩
    have hMg : ∀ k, M.blocks.getBlock k = if k = x then (m.blocks.getBlock k).map fun b => b.threshold else m.blocks.getBlock k := by
      intro k
      rw [hM]
      dsimp only
      rw [SpatialHash.getBlock_modify]
      by_cases hk : k = x
      · rw [if_pos hk, if_pos hk, hk]
      · rw [if_neg hk, if_neg hk]
    have hMk : M.blocks.keys = m.blocks.keys := by rw [hM]; exact SpatialHash.keys_modify _ _ _
    have hMc : M.config = m.config := by rw [hM]
    have hd : max - count = (max - count - 1) + 1 := by omega
    rw [selectBlocks, if_pos (by unfold SpatialHash.hasBlock; exact hx)]
    dsimp only
    rw [← hM]
    by_cases hmx : max ≤ count + 1
    · rw [if_pos hmx]
      have : max - count = 0 + 1 := by omega
      rw [this, List.take_succ_cons, List.take_zero]
      refine ⟨rfl, hMc, hMk, fun k => ?_⟩
      dsimp only
      rw [hMg]
      simp only [List.mem_singleton]
    · rw [if_neg hmx]
      obtain ⟨h1, h2, h3, h4⟩ := ih (count + 1) M (by omega) hnd.2 (fun k hk => by
        rw [hMg]
        split
        · have := hex k (List.mem_cons_of_mem _ hk)
          simpa using this
        · exact hex k (List.mem_cons_of_mem _ hk))
      rw [hd, List.take_succ_cons, show max - count - 1 = max - (count + 1) by omega]
      refine ⟨by rw [← h1], h2.trans hMc, h3.trans hMk, fun k => ?_⟩
      dsimp only
      rw [h4, hMg]
      by_cases hk : k = x
      · rw [if_pos hk, if_neg, if_pos (by rw [hk]; exact List.mem_cons_self)]
        rw [hk]; exact fun h => hnd.1 (List.mem_of_mem_take h)
      · rw [if_neg hk]
        simp only [List.mem_cons, hk, false_or]

/-- A receiver applies the messages in order. -/
def receiveAll (now : ℚ) : List HashedWaveletMsg → Option HashedWaveletOctree → Outcome (Option HashedWaveletOctree)
  | [], r => .done r
  | msg :: msgs, r => (applyMsg now msg r).bind fun m => receiveAll now msgs (some m)

theorem threshold_root {b : WaveletBlock} (h : b.root ≠ .nil) : b.threshold.root ≠ .nil := by
  unfold WaveletBlock.threshold
  split
  · dsimp only
    cases hb : b.root with
    | nil => exact absurd hb h
    | leaf a => simp [WTree.recThreshold]
    | node a ch => simp [WTree.recThreshold]
  · exact h

theorem publishLoop_spec (shuffle : List (Index 3) → List (Index 3)) (hsh : ∀ l, (shuffle l).Perm l) (max : Nat) (hmax : 0 < max)
    (now : ℚ) : ∀ (fuel : Nat) (ks : List (Index 3)) (m : HashedWaveletOctree), ks.length ≤ fuel → m.config.isValid = true →
    m.config.treeHeight ≤ 20 → (∀ k b, m.blocks.getBlock k = some b → b.root ≠ .nil) →
    ks.Nodup → (∀ k ∈ ks, (m.blocks.getBlock k).isSome = true) →
    ∀ (old : Option HashedWaveletOctree), (∀ o, old = some o → o.RecvOk) →
    ∃ m' msgs r, publishLoop shuffle max fuel ks m = some (m', msgs) ∧ m'.config = m.config ∧ m'.blocks.keys = m.blocks.keys ∧
      (∀ k, m'.blocks.getBlock k = if k ∈ ks then (m.blocks.getBlock k).map fun b => b.threshold else m.blocks.getBlock k) ∧
      (msgs = [] ↔ ks = []) ∧ receiveAll now msgs old = .done r ∧ (ks = [] → r = old) ∧
      (ks ≠ [] → ∃ R, r = some R ∧ R.config = recvConfig m.config ∧ R.RecvOk ∧
        ∀ k, (m.blocks.getBlock k = none ∧ R.blocks.getBlock k = none) ∨
          ∃ b, m.blocks.getBlock k = some b ∧
            ((k ∈ ks ∧ ∃ b', R.blocks.getBlock k = some b' ∧ Received m.config b.threshold b') ∨
              (k ∉ ks ∧ R.blocks.getBlock k = keptBlock m.config old k))) := by
  intro fuel
  induction fuel with
  | zero =>
    intro ks m hf hv hH hm hnd hex old hold
    have : ks = [] := by cases ks with
      | nil => rfl
      | cons => simp at hf
    subst this
    exact ⟨m, [], old, rfl, rfl, rfl, fun k => by simp, by simp, rfl, fun _ => rfl, fun h => absurd rfl h⟩
  | succ fuel ih =>
    intro ks m hf hv hH hm hnd hex old hold
    cases hks : ks with
    | nil => exact ⟨m, [], old, rfl, rfl, rfl, fun k => by simp, by simp, rfl, fun _ => rfl, fun h => absurd rfl h⟩
    | cons x xs =>
      obtain ⟨h1, h2, h3, h4⟩ := selectBlocks_spec max ks 0 m hmax hnd hex
      rw [Nat.sub_zero] at h1 h4
      obtain ⟨M, hM⟩ : ∃ M, M = (selectBlocks max 0 ks m).2 := ⟨_, rfl⟩
      rw [← hM] at h2 h3 h4
      have hroots : ∀ k b, M.blocks.getBlock k = some b → b.root ≠ .nil := by
        intro k b hk
        rw [h4] at hk
        split at hk
        · rw [Option.map_eq_some_iff] at hk
          obtain ⟨b', hb', rfl⟩ := hk
          exact threshold_root (hm k b' hb')
        · exact hm k b hk
      have hperm := hsh (ks.take max)
      have htn : (ks.take max).Nodup := hnd.sublist (List.take_sublist _ _)
      obtain ⟨msg, R, a1, a2, a3, a4, a5⟩ := applyMsg_spec now M (by rw [h2]; exact hv) (by rw [h2]; exact hH) hroots (shuffle (ks.take max))
        (hperm.nodup_iff.2 htn) old hold
      have hlen : (ks.take max).length = Nat.min max ks.length := List.length_take
      have hdrop : ks.drop (ks.take max).length = ks.drop max := by
        rw [List.length_take]
        by_cases hle : max ≤ ks.length
        · rw [Nat.min_eq_left hle]
        · rw [Nat.min_eq_right (by omega), List.drop_length, List.drop_eq_nil_of_le (by omega)]
      have hdis : ∀ k ∈ ks.drop max, k ∉ ks.take max := by
        intro k hk hk'
        have := hnd
        rw [← List.take_append_drop max ks, List.nodup_append] at this
        exact this.2.2 k hk' k hk rfl
      have hsplit : ∀ k, k ∈ ks ↔ k ∈ ks.take max ∨ k ∈ ks.drop max := by
        intro k
        conv_lhs => rw [← List.take_append_drop max ks]
        exact List.mem_append
      obtain ⟨m', msgs, r, b1, b2, b3, b4, b5, b6, b7, b8⟩ := ih (ks.drop max) M
        (by rw [List.length_drop]; have : 0 < ks.length := by rw [hks]; simp
            omega)
        (by rw [h2]; exact hv) (by rw [h2]; exact hH) hroots (hnd.sublist (List.drop_sublist _ _))
        (fun k hk => by
          rw [h4, if_neg (hdis k hk)]
          exact hex k (List.mem_of_mem_drop hk))
        (some R) (fun o ho => by cases ho; exact a4)
      refine ⟨m', msg :: msgs, r, ?_, b2.trans h2, b3.trans h3, fun k => ?_, by simp, ?_, fun h => by simp at h, fun _ => ?_⟩
      · rw [publishLoop, ← hks, h1, ← hM]
        rw [a1]
        dsimp only
        rw [hdrop, b1]
        rfl
      · rw [b4, h4, ← hks]
        by_cases hd : k ∈ ks.drop max
        · rw [if_pos hd, if_neg (hdis k hd), if_pos ((hsplit k).2 (Or.inr hd))]
        · rw [if_neg hd]
          by_cases ht : k ∈ ks.take max
          · rw [if_pos ht, if_pos ((hsplit k).2 (Or.inl ht))]
          · rw [if_neg ht, if_neg (fun h => ((hsplit k).1 h).elim ht hd)]
      · rw [receiveAll, a2]
        exact b6
      · -- what the receiver holds after the first message, in terms of the original map
        have first : ∀ k, (m.blocks.getBlock k = none ∧ R.blocks.getBlock k = none) ∨
            ∃ b, m.blocks.getBlock k = some b ∧
              ((k ∈ ks.take max ∧ ∃ b', R.blocks.getBlock k = some b' ∧ Received m.config b.threshold b') ∨
                (k ∉ ks.take max ∧ R.blocks.getBlock k = keptBlock m.config old k)) := by
          intro k
          have h := a5 k
          rw [h4, h2, hperm.mem_iff] at h
          by_cases ht : k ∈ ks.take max
          · rw [if_pos ht] at h
            rcases h with ⟨e1, e2⟩ | ⟨b, e1, ⟨_, e2⟩ | ⟨e2, _⟩⟩
            · left; exact ⟨by simpa using e1, e2⟩
            · right
              rw [Option.map_eq_some_iff] at e1
              obtain ⟨b0, e3, rfl⟩ := e1
              exact ⟨b0, e3, Or.inl ⟨ht, e2⟩⟩
            · exact absurd ht e2
          · rw [if_neg ht] at h
            rcases h with h | ⟨b, e1, ⟨e2, _⟩ | h⟩
            · exact Or.inl h
            · exact absurd e2 ht
            · exact Or.inr ⟨b, e1, Or.inr h⟩
        by_cases hd : ks.drop max = []
        · have hr := b7 hd
          subst hr
          have hall : ∀ k, k ∈ ks ↔ k ∈ ks.take max := by
            intro k; rw [hsplit, hd]; simp
          refine ⟨R, rfl, by rw [a3, h2], a4, fun k => ?_⟩
          rw [← hks, hall]
          exact first k
        · obtain ⟨R', c1, c2, c3, c4⟩ := b8 hd
          refine ⟨R', c1, by rw [c2, h2], c3, fun k => ?_⟩
          rw [← hks]
          have hkept : keptBlock M.config (some R) k = R.blocks.getBlock k := by
            unfold keptBlock
            dsimp only
            rw [if_pos ((sameConfig_iff _ _).2 a3)]
          have h := c4 k
          rw [hkept] at h
          by_cases ht : k ∈ ks.take max
          · have hnd' : k ∉ ks.drop max := fun h => hdis k h ht
            rw [h4, if_pos ht] at h
            rcases h with ⟨e1, e2⟩ | ⟨b, e1, ⟨e2, _⟩ | ⟨_, e2⟩⟩
            · left; exact ⟨by simpa using e1, e2⟩
            · exact absurd e2 hnd'
            · right
              rcases first k with ⟨f1, _⟩ | ⟨b0, f1, ⟨_, b', f2, f3⟩ | ⟨f2, _⟩⟩
              · rw [f1] at e1; cases e1
              · exact ⟨b0, f1, Or.inl ⟨(hsplit k).2 (Or.inl ht), b', by rw [e2]; exact f2, f3⟩⟩
              · exact absurd ht f2
          · rw [h4, if_neg ht, h2] at h
            rcases h with h | ⟨b, e1, ⟨e2, e3⟩ | ⟨e2, e3⟩⟩
            · exact Or.inl h
            · exact Or.inr ⟨b, e1, Or.inl ⟨(hsplit k).2 (Or.inr e2), e3⟩⟩
            · right
              rcases first k with ⟨f1, _⟩ | ⟨b0, f1, ⟨f2, _⟩ | ⟨_, f2⟩⟩
              · rw [f1] at e1; cases e1
              · exact absurd f2 ht
              · exact ⟨b, e1, Or.inr ⟨fun hk => ((hsplit k).1 hk).elim ht e2, by rw [e3, f2]⟩⟩

end HashedWaveletOctree
end Wavemap
