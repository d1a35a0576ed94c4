import Verif.Lemmas.ClassifiedLeaves
/-!
# C26: classified maps

Specification: which class a cell has (`Classes`, `SafeClasses`); a cell whose block is not in the occupancy map has none. The
region queries and leaves must agree with this for every cell of the region. `IsClass`, `OccClass` and `InMask` are those of C27,
`NodeRegion n j` says that cell `j` lies in the cube of node `n` (C03).
-/
namespace Wavemap
open NdtreeIndex Haar NdtreeBlockHash

/-! ## Specification -/

/-- Which classes a cell has: one, or none. -/
abbrev CellClasses := Index 3 → OccClass → Prop

/-- The class of a cell according to its occupancy. -/
def HashedWaveletOctree.Classes (m : HashedWaveletOctree) (threshold : ℚ) : CellClasses :=
  fun j k => m.Allocated j ∧ IsClass threshold (m.getCellValue j) k

/-- The class of a cell for a robot: free cells closer than `radius` to an obstacle count as occupied. -/
def HashedWaveletOctree.SafeClasses (m : HashedWaveletOctree) (threshold : ℚ) (esdf : HashedBlocks) (radius : ℚ) : CellClasses :=
  fun j k => m.Allocated j ∧
    ((IsClass threshold (m.getCellValue j) .free ∧ esdf.getCellValue j < radius ∧ k = .occupied) ∨
     (¬ (IsClass threshold (m.getCellValue j) .free ∧ esdf.getCellValue j < radius) ∧ IsClass threshold (m.getCellValue j) k))

/-- The region contains a cell with a class of the mask. -/
def RegionHas (K : CellClasses) (n : NdtreeIndex 3) (mask : BitVec 8) : Prop := ∃ j k, NodeRegion n j ∧ K j k ∧ InMask mask k

/-- All cells of the region have a class of the mask. -/
def RegionIsFully (K : CellClasses) (n : NdtreeIndex 3) (mask : BitVec 8) : Prop := ∀ j, NodeRegion n j → ∃ k, K j k ∧ InMask mask k

/-- The mask lists exactly the classes that occur in the region, all of whose cells have one. -/
def ExactMask (K : CellClasses) (n : NdtreeIndex 3) (mask : BitVec 8) : Prop :=
  (∀ k, InMask mask k ↔ ∃ j, NodeRegion n j ∧ K j k) ∧ (∀ j, NodeRegion n j → ∃ k, K j k) ∧ ∀ i, 3 ≤ i → mask.getLsbD i = false

/-- Calls on a classified map. -/
inductive ClassifiedOp where
  /-- `update(m)` -/
  | update (m : HashedWaveletOctree)
  /-- `update(m, esdf, radius)` -/
  | updateEsdf (m : HashedWaveletOctree) (esdf : HashedBlocks) (radius : ℚ)
  | has (n : NdtreeIndex 3) (mask : BitVec 8)
  | isFully (n : NdtreeIndex 3) (mask : BitVec 8)
  | getValue (n : NdtreeIndex 3)
  | getNodeOrAncestor (n : NdtreeIndex 3)
  | hasBlock (b : Index 3)

namespace ClassifiedOp

/-- The call on the modelled map. -/
def run (c : ClassifiedMap) : ClassifiedOp → Option ClassifiedMap
  | update m => some (c.update m)
  | updateEsdf m esdf radius => c.updateEsdf m esdf radius
  | has n mask => (c.has n mask).map Prod.snd
  | isFully n mask => (c.isFully n mask).map Prod.snd
  | getValue n => (c.getValue n).map Prod.snd
  | getNodeOrAncestor n => (c.getNodeOrAncestor n).map Prod.snd
  | hasBlock b => (c.hasBlock b).map Prod.snd

/-- The classes that the map should report after the call. -/
def spec (threshold : ℚ) (K : CellClasses) : ClassifiedOp → CellClasses
  | update m => m.Classes threshold
  | updateEsdf m esdf radius => m.SafeClasses threshold esdf radius
  | _ => K

/-- Preconditions: maps have the tree height of the classified map, the distance map fits the robot and the occupancy map,
queried nodes exist. -/
def Valid (H : Nat) : ClassifiedOp → Prop
  | update m => m.Reachable ∧ m.config.treeHeight = H
  | updateEsdf m esdf radius => (m.Reachable ∧ m.config.treeHeight = H) ∧
      radius ≤ esdf.hash.defaultValue ∧ radius ≤ esdf.config.maxLogOdds ∧ |esdf.config.minCellWidth - m.config.minCellWidth| ≤ (1 : ℚ) / 1000000
  | has n _ => NodeQuery H n
  | isFully n _ => NodeQuery H n
  | getValue n => NodeQuery H n ∧ n.height < H
  | getNodeOrAncestor n => NodeQuery H n
  | hasBlock b => ∃ j, Int32Index j ∧ indexToBlockIndex H j = b

/-- Updates. -/
def IsUpdate : ClassifiedOp → Prop
  | update _ => True
  | updateEsdf _ _ _ => True
  | _ => False

/-- Updates, `has`, `isFully` and `hasBlock`. -/
def IsRegional : ClassifiedOp → Prop
  | getValue _ => False
  | getNodeOrAncestor _ => False
  | _ => True

end ClassifiedOp

/-- A sequence of calls; `none` if one of them is undefined behaviour or fails a `CHECK`. -/
def ClassifiedMap.runAll (c : ClassifiedMap) (ops : List ClassifiedOp) : Option ClassifiedMap := ops.foldlM ClassifiedOp.run c

/-! ## Proofs -/

namespace CTree

theorem classify_ne_nil (cl : OccClassifier) (t : WTree) (avg : ℚ) (ct : CTree) (h : ct ≠ .nil) : classify cl t avg ct ≠ .nil := by
  by_cases ht : t = .nil
  · subst ht; exact h
  · rw [classify_eq cl t ht]
    exact (fold_all (local_step (fun c => (NTree.child t c).isNil)
      (fun c k => decide (classOf cl.threshold (backward 3 ⟨avg, WTree.details t⟩ c) = k))
      (fun c k => classify cl (NTree.child t c) (backward 3 ⟨avg, WTree.details t⟩ c) k)) ct h).1

theorem classifyEsdf_ne_nil (cl : OccClassifier) (distance : Index 3 → Option ℚ) (radius : ℚ) (h : Nat) (n : NdtreeIndex 3) (hn : n.height = h)
    (t : WTree) (avg : ℚ) (ct : CTree) (hct : ct ≠ .nil) : classifyEsdf cl distance radius h n t avg ct ≠ .nil := by
  cases h with
  | zero => exact hct
  | succ h =>
    rw [classifyEsdf_eq cl distance radius h n (by exact_mod_cast hn)]
    exact (fold_all (local_step (fun c => decide (h = 0 ∨ (classOf cl.threshold (childAverage t avg c) ≠ .free ∧ (NTree.child t c).isNil = true)))
      (fun c k => decide (esdfClass cl.threshold distance radius (childAverage t avg c) (n.computeChildIndex c.val).position = k))
      (fun c k => classifyEsdf cl distance radius h (n.computeChildIndex c.val) (NTree.child t c) (childAverage t avg c) k)) ct hct).1

end CTree

namespace ClassifiedMap
open QueryCache CTree

/-- The map describes the classes. With `ex`, it has no superfluous nodes. -/
structure Ok (H : Nat) (cl : OccClassifier) (ex : Bool) (K : CellClasses) (c : ClassifiedMap) : Prop where
  base : Base c.blocks H
  classifier : c.classifier = cl
  good : ∃ C : Index 3 → OccClass, GoodBlocks C ex c.blocks ∧ QInv C ex c.blocks c.cache ∧
    ∀ j k, K j k ↔ (∃ x, c.blocks.blocks.getBlock (indexToBlockIndex H j) = some x) ∧ C j = k

theorem GoodBlocks.weaken {C : Index 3 → OccClass} {ex : Bool} {m : ClassBlocks} (h : GoodBlocks C ex m) : GoodBlocks C false m :=
  fun b x hx => (h b x hx).weaken

theorem QInv.weaken {C : Index 3 → OccClass} {ex : Bool} {m : ClassBlocks} {q : QueryCache} (h : QInv C ex m q) : QInv C false m q := by
  cases h with
  | missing hb hl hh => exact .missing hb hl hh
  | entered hx hl hh hs => exact .entered hx hl hh ⟨hs.le, fun k h1 h2 => by obtain ⟨t, e, g⟩ := hs.node k h1 h2; exact ⟨t, e, g.weaken⟩⟩
  | loaded n hn hb hx hm hl hs =>
    exact .loaded n hn hb hx hm hl ⟨hs.le, fun k h1 h2 => by obtain ⟨t, e, g⟩ := hs.node k h1 h2; exact ⟨t, e, g.weaken⟩⟩

theorem Ok.weaken {H : Nat} {cl : OccClassifier} {ex : Bool} {K : CellClasses} {c : ClassifiedMap} (h : Ok H cl ex K c) : Ok H cl false K c := by
  obtain ⟨C, h1, h2, h3⟩ := h.good
  exact ⟨h.base, h.classifier, C, GoodBlocks.weaken h1, QInv.weaken h2, h3⟩

theorem create_base (w : ℚ) (H : Nat) (cl : OccClassifier) : Base (create w H cl).blocks H :=
  ⟨rfl, rfl, List.nodup_nil, fun k b h => by cases h⟩

theorem create_ok (w : ℚ) (H : Nat) (cl : OccClassifier) (ex : Bool) : Ok H cl ex (fun _ _ => False) (create w H cl) := by
  refine ⟨create_base w H cl, rfl, fun _ => .free, fun b x h => ?_, fresh_qinv _ _ (.create H {}), fun j k => ?_⟩
  · cases h
  · constructor
    · exact False.elim
    · rintro ⟨⟨x, h⟩, -⟩; cases h

theorem block_region {H : Nat} {k j : Index 3} : NodeRegion (⟨H, k⟩ : NdtreeIndex 3) j ↔ indexToBlockIndex H j = k := by
  rw [HashedWaveletOctree.region_block, inBlock_iff]

/-- Both updates. -/
theorem update_ok {H : Nat} {cl : OccClassifier} {c c' : ClassifiedMap} (hbase : Base c.blocks H) (hcl : c'.classifier = cl) {m : HashedWaveletOctree}
    (hm : m.Inv) (hmH : m.config.treeHeight = H) (f : Index 3 × WaveletBlock → CTree → CTree) (C : Index 3 → OccClass) (ex : Bool)
    (hex : ex = true → c.blocks.blocks = [])
    (hblocks : c'.blocks = m.blocks.foldl (fun c e => updateBlock c e.1 (f e)) (eraseMissing c.blocks m))
    (hcache : c'.cache = .fresh c.blocks.maxHeight)
    (hf : ∀ e t, t ≠ .nil → f e t ≠ .nil)
    (hgood : ∀ b w, m.blocks.getBlock b = some w → ∀ r, r ≠ .nil → (ex = true → ∀ c, NTree.child r c = .nil) →
      Good C ex H (f (b, w) r) ⟨H, b⟩) :
    Ok H cl ex (fun j k => m.Allocated j ∧ C j = k) c' := by
  obtain ⟨h1, h2⟩ := update_blocks hbase hm.nodup f hf
  rw [← hblocks] at h1 h2
  have hgb : ∀ b, (∃ x, c'.blocks.blocks.getBlock b = some x) ↔ (m.blocks.getBlock b).isSome = true := by
    intro b
    have := h2 b
    cases hb : m.blocks.getBlock b with
    | none => rw [hb] at this; dsimp only at this; rw [this]; simp
    | some w =>
      rw [hb] at this
      obtain ⟨x, r, e, -⟩ := this
      exact ⟨fun _ => rfl, fun _ => ⟨x, e⟩⟩
  refine ⟨h1, hcl, C, ?_, ?_, ?_⟩
  · intro b x hx
    rw [h1.height]
    have h3 := h2 b
    cases hb : m.blocks.getBlock b with
    | none => rw [hb] at h3; dsimp only at h3; rw [hx] at h3; cases h3
    | some w =>
      rw [hb] at h3
      obtain ⟨x', r, e1, e2, e3, e4⟩ := h3
      rw [hx] at e1
      cases e1
      rw [e2]
      refine hgood b w hb r e3 fun hex' c => ?_
      rw [e4 (hex hex')]; rfl
  · rw [hcache, hbase.height, ← h1.height]
    exact fresh_qinv _ _ _
  · intro j k
    rw [hgb, m.allocated_iff, hmH]

theorem Ok.update {H : Nat} {cl : OccClassifier} {c : ClassifiedMap} (hbase : Base c.blocks H) (hcl : c.classifier = cl) {m : HashedWaveletOctree}
    (hm : m.Reachable) (hmH : m.config.treeHeight = H) (ex : Bool) (hex : ex = true → c.blocks.blocks = []) :
    Ok H cl ex (m.Classes cl.threshold) (c.update m) := by
  have hi := hm.inv
  have hK : m.Classes cl.threshold = fun j k => m.Allocated j ∧ classOf cl.threshold (m.getCellValue j) = k := by
    funext j k
    unfold HashedWaveletOctree.Classes
    rw [classOf_iff]
  rw [hK]
  refine update_ok (c' := c.update m) hbase hcl hi hmH (fun e => classify c.classifier e.2.root e.2.rootScale) _ ex hex rfl rfl (fun e t ht => classify_ne_nil _ _ _ _ ht) ?_
  intro b w hb r hr hrc
  have hok := hi.ok b w hb
  rw [hcl]
  have hd := hok.depth
  rw [hmH] at hd
  refine classify_good cl _ ex H w.root ⟨H, b⟩ w.rootScale r hok.root hd rfl hr hrc fun j hj => ?_
  rw [block_region] at hj
  rw [HashedWaveletOctree.getCellValue_eq hi, hmH, hj, hb]
  dsimp only
  unfold WaveletBlock.val
  rw [hok.height, hmH]

theorem esdfClass_iff (threshold : ℚ) (esdf : HashedBlocks) (radius v : ℚ) (hr : radius ≤ esdf.hash.defaultValue) (j : Index 3) (k : OccClass) :
    esdfClass threshold esdf.hash.getValue radius v j = k ↔
      ((IsClass threshold v .free ∧ esdf.getCellValue j < radius ∧ k = .occupied) ∨
       (¬ (IsClass threshold v .free ∧ esdf.getCellValue j < radius) ∧ IsClass threshold v k)) := by
  have hd : esdf.getCellValue j = match esdf.hash.getValue j with | none => esdf.hash.defaultValue | some x => x := by
    unfold HashedBlocks.getCellValue DenseBlockHash.getValueOrDefault
    cases esdf.hash.getValue j <;> rfl
  rw [← classOf_iff, ← classOf_iff, hd]
  unfold esdfClass
  by_cases hf : classOf threshold v = .free
  · rw [hf]
    cases esdf.hash.getValue j with
    | none =>
      have : ¬ esdf.hash.defaultValue < radius := not_lt.2 hr
      simp [this]
    | some x =>
      dsimp only
      by_cases hx : x < radius
      · rw [if_pos hx]; simp [hx, eq_comm]
      · rw [if_neg hx]; simp [hx]
  · cases hc : classOf threshold v with
    | free => exact absurd hc hf
    | occupied => cases esdf.hash.getValue j <;> simp
    | unobserved => cases esdf.hash.getValue j <;> simp

theorem Ok.updateEsdf {H : Nat} (hH : 0 < H) {cl : OccClassifier} {c : ClassifiedMap} (hbase : Base c.blocks H) (hcl : c.classifier = cl)
    {m : HashedWaveletOctree} (hm : m.Reachable) (hmH : m.config.treeHeight = H) (esdf : HashedBlocks) (radius : ℚ)
    (hcheck : radius ≤ esdf.hash.defaultValue ∧ radius ≤ esdf.config.maxLogOdds ∧ |esdf.config.minCellWidth - m.config.minCellWidth| ≤ epsilon)
    (ex : Bool) (hex : ex = true → c.blocks.blocks = []) :
    ∃ c', c.updateEsdf m esdf radius = some c' ∧ Ok H cl ex (m.SafeClasses cl.threshold esdf radius) c' := by
  have hi := hm.inv
  have hK : m.SafeClasses cl.threshold esdf radius =
      fun j k => m.Allocated j ∧ esdfClass cl.threshold esdf.hash.getValue radius (m.getCellValue j) j = k := by
    funext j k
    unfold HashedWaveletOctree.SafeClasses
    rw [esdfClass_iff _ _ _ _ hcheck.1]
  rw [hK]
  refine ⟨_, if_pos hcheck, ?_⟩
  refine update_ok hbase (by exact hcl) hi hmH (fun e => classifyEsdf c.classifier esdf.hash.getValue radius m.config.treeHeight ⟨m.config.treeHeight, e.1⟩ e.2.root e.2.rootScale)
    _ ex hex rfl rfl (fun e t ht => classifyEsdf_ne_nil _ _ _ _ _ rfl _ _ _ ht) ?_
  intro b w hb r hr hrc
  have hok := hi.ok b w hb
  rw [hcl]
  have hd := hok.depth
  rw [hmH] at hd
  dsimp only
  rw [hmH]
  refine classifyEsdf_good cl _ radius _ ex H w.root ⟨H, b⟩ w.rootScale r hH hd rfl hr hrc fun j hj => ?_
  rw [block_region] at hj
  rw [HashedWaveletOctree.getCellValue_eq hi, hmH, hj, hb]
  dsimp only
  unfold WaveletBlock.val
  rw [hok.height, hmH]

theorem query_facts {H : Nat} (hH : 0 < H) {c : ClassifiedMap} (hb : Base c.blocks H) {n : NdtreeIndex 3} (hn : NodeQuery H n) :
    NodeInHash c.blocks.maxHeight n ∧ c.blocks.indexToBlockIndex n ≠ noBlockIndex := by
  have h1 : NodeInHash c.blocks.maxHeight n := by rw [hb.height]; exact ⟨hn.1, hn.2.1⟩
  refine ⟨h1, ?_⟩
  rw [NdtreeAccelerator.blk_eq_blockOfNode _ _ h1, hb.height, ← blockOfNode_eq n hn.1 hn.2.1]
  exact block_ne_noBlock hH _ hn.2.2

/-- All cells of a node lie in the node's block. -/
theorem region_in_block' {H : Nat} (hH : H ≤ 20) {c : ClassifiedMap} (hb : Base c.blocks H) {n : NdtreeIndex 3} (hn : NodeInHash c.blocks.maxHeight n)
    {j : Index 3} (hj : NodeRegion n j) : indexToBlockIndex H j = c.blocks.indexToBlockIndex n := by
  have hn0 := hn.1; have hn1 := hn.2
  have hh := hb.height
  rw [← onPath_node (m := c.blocks) (by omega) hn] at hj
  have := onPath_region _ _ (show n.height.toNat ≤ c.blocks.maxHeight by omega) (Nat.le_refl _) j hj
  rw [onPath_top, block_region, hh] at this
  exact this

theorem region_in_block {H : Nat} (hH : H < 20) {c : ClassifiedMap} (hb : Base c.blocks H) {n : NdtreeIndex 3} (hn : NodeInHash c.blocks.maxHeight n)
    {j : Index 3} (hj : NodeRegion n j) : indexToBlockIndex H j = c.blocks.indexToBlockIndex n := region_in_block' hH.le hb hn hj

theorem Ok.region {H : Nat} (hH : 0 < H) (hH' : H < 20) {cl : OccClassifier} {ex : Bool} {K : CellClasses} {c : ClassifiedMap} (h : Ok H cl ex K c)
    {n : NdtreeIndex 3} (hn : NodeQuery H n) (mask : BitVec 8) (atNode : BitVec 8 → BitVec 8 → Bool) (final : Bool)
    (hat : atNode = if final then OccClassifier.has else OccClassifier.isFully) :
    ∃ r q, QueryCache.region atNode final c.blocks c.cache n mask = some (r, q) ∧ Ok H cl ex K { c with cache := q } ∧
      (r = true ↔ if final then RegionHas K n mask else RegionIsFully K n mask) := by
  obtain ⟨C, hg, hq, hK⟩ := h.good
  obtain ⟨h1, h2⟩ := query_facts hH h.base hn
  obtain ⟨r, q, e, hq', hr⟩ := region_spec hg (by rw [h.base.height]; exact hH') hq h1 h2 atNode final hat mask
  refine ⟨r, q, e, ⟨h.base, h.classifier, C, hg, hq', hK⟩, ?_⟩
  rw [hr]
  obtain ⟨j₀, hj₀⟩ := region_nonempty n
  have hblk : ∀ j, NodeRegion n j → indexToBlockIndex H j = c.blocks.indexToBlockIndex n := fun j hj => region_in_block hH' h.base h1 hj
  unfold Answer
  cases final
  · simp only [Bool.false_eq_true, if_false]
    unfold RegionIsFully
    simp only [hK]
    constructor
    · rintro ⟨hx, ha⟩ j hj
      rw [hblk j hj]
      exact ⟨_, ⟨hx, rfl⟩, ha _ ⟨j, hj, rfl⟩⟩
    · intro ha
      refine ⟨?_, ?_⟩
      · obtain ⟨k, ⟨hx, -⟩, -⟩ := ha j₀ hj₀
        rw [hblk j₀ hj₀] at hx; exact hx
      · rintro k ⟨j, hj, rfl⟩
        obtain ⟨k, ⟨-, e⟩, hm⟩ := ha j hj
        rw [e]; exact hm
  · simp only [if_true]
    unfold RegionHas
    simp only [hK]
    constructor
    · rintro ⟨hx, k, ⟨j, hj, hk⟩, hm⟩
      exact ⟨j, k, hj, ⟨by rw [hblk j hj]; exact hx, hk⟩, hm⟩
    · rintro ⟨j, k, hj, ⟨hx, hk⟩, hm⟩
      rw [hblk j hj] at hx
      exact ⟨hx, k, ⟨j, hj, hk⟩, hm⟩

theorem Ok.has {H : Nat} (hH : 0 < H) (hH' : H < 20) {cl : OccClassifier} {ex : Bool} {K : CellClasses} {c : ClassifiedMap} (h : Ok H cl ex K c)
    {n : NdtreeIndex 3} (hn : NodeQuery H n) (mask : BitVec 8) :
    ∃ r c', c.has n mask = some (r, c') ∧ Ok H cl ex K c' ∧ (r = true ↔ RegionHas K n mask) := by
  obtain ⟨r, q, e, h1, h2⟩ := h.region hH hH' hn mask OccClassifier.has true rfl
  refine ⟨r, _, ?_, h1, h2⟩
  unfold ClassifiedMap.has QueryCache.has
  rw [e]; rfl

theorem Ok.isFully {H : Nat} (hH : 0 < H) (hH' : H < 20) {cl : OccClassifier} {ex : Bool} {K : CellClasses} {c : ClassifiedMap} (h : Ok H cl ex K c)
    {n : NdtreeIndex 3} (hn : NodeQuery H n) (mask : BitVec 8) :
    ∃ r c', c.isFully n mask = some (r, c') ∧ Ok H cl ex K c' ∧ (r = true ↔ RegionIsFully K n mask) := by
  obtain ⟨r, q, e, h1, h2⟩ := h.region hH hH' hn mask OccClassifier.isFully false rfl
  refine ⟨r, _, ?_, h1, h2⟩
  unfold ClassifiedMap.isFully QueryCache.isFully
  rw [e]; rfl

theorem Ok.hasBlock {H : Nat} (hH : 0 < H) (hH' : H < 20) {cl : OccClassifier} {ex : Bool} {K : CellClasses} {c : ClassifiedMap} (h : Ok H cl ex K c)
    {b : Index 3} (hb : ∃ j, Int32Index j ∧ indexToBlockIndex H j = b) :
    ∃ r c', c.hasBlock b = some (r, c') ∧ Ok H cl ex K c' ∧ (r = true ↔ ∃ j k, indexToBlockIndex H j = b ∧ K j k) := by
  obtain ⟨C, hg, hq, hK⟩ := h.good
  obtain ⟨j, hj, rfl⟩ := hb
  obtain ⟨q, e, hq', hr⟩ := getBlock_spec hg (by rw [h.base.height]; exact hH') hq (block_ne_noBlock hH _ hj)
  refine ⟨q.block, { c with cache := q }, by unfold ClassifiedMap.hasBlock; rw [e]; rfl, ⟨h.base, h.classifier, C, hg, hq', hK⟩, ?_⟩
  rw [hr]
  constructor
  · exact fun hx => ⟨j, C j, rfl, (hK _ _).2 ⟨hx, rfl⟩⟩
  · rintro ⟨j', k, he, hk⟩
    rw [← he]; exact ((hK _ _).1 hk).1

theorem Ok.getNodeOrAncestor {H : Nat} (hH : 0 < H) (hH' : H < 20) {cl : OccClassifier} {K : CellClasses} {c : ClassifiedMap} (h : Ok H cl true K c)
    {n : NdtreeIndex 3} (hn : NodeQuery H n) :
    ∃ r c', c.getNodeOrAncestor n = some (r, c') ∧ Ok H cl true K c' := by
  obtain ⟨C, hg, hq, hK⟩ := h.good
  obtain ⟨h1, h2⟩ := query_facts hH h.base hn
  obtain ⟨t, k, q, e, hq', -⟩ := getNodeOrAncestor_spec hg (by rw [h.base.height]; exact hH') hq h1 h2
  refine ⟨(t, k), { c with cache := q }, ?_, ⟨h.base, h.classifier, C, hg, hq', hK⟩⟩
  unfold ClassifiedMap.getNodeOrAncestor
  rw [e]; rfl

theorem exactMask_of {H : Nat} (hH' : H < 20) {K : CellClasses} {c : ClassifiedMap} (h : Base c.blocks H)
    {C : Index 3 → OccClass} (hK : ∀ j k, K j k ↔ (∃ x, c.blocks.blocks.getBlock (indexToBlockIndex H j) = some x) ∧ C j = k)
    {n : NdtreeIndex 3} (h1 : NodeInHash c.blocks.maxHeight n) (hx : ∃ x, c.blocks.blocks.getBlock (c.blocks.indexToBlockIndex n) = some x)
    {a : ClassData} {i : Fin (2 ^ 3)} (hmask : ∀ k, InMask (a.childOccupancyMask i) k ↔ Occurs C n k) : ExactMask K n (a.childOccupancyMask i) := by
  have hblk : ∀ j, NodeRegion n j → indexToBlockIndex H j = c.blocks.indexToBlockIndex n := fun j hj => region_in_block hH' h h1 hj
  refine ⟨fun k => ?_, fun j hj => ⟨C j, (hK _ _).2 ⟨by rw [hblk j hj]; exact hx, rfl⟩⟩, fun i hi => boolMask_high _ _ _ i hi⟩
  rw [hmask]
  constructor
  · rintro ⟨j, hj, e⟩; exact ⟨j, hj, (hK _ _).2 ⟨by rw [hblk j hj]; exact hx, e⟩⟩
  · rintro ⟨j, hj, e⟩; exact ⟨j, hj, ((hK _ _).1 e).2⟩

theorem region_parent (n : NdtreeIndex 3) (hn : 0 ≤ n.height) {j : Index 3} (hj : NodeRegion n j) : NodeRegion n.computeParentIndex j := by
  obtain ⟨h1, h2⟩ := C02_child_of_parent n
  refine child_region (c := ⟨_, h1⟩) ?_ (by rw [h2]; exact hj)
  show 1 ≤ n.height + 1
  omega

/-- The paths to a node and to its parent agree above the node. -/
theorem onPath_parent {H : Nat} (hH' : H < 20) {c : ClassifiedMap} (hb : Base c.blocks H) {n : NdtreeIndex 3} (hn : NodeInHash c.blocks.maxHeight n)
    (hlt : n.height < H) {k : Nat} (hk : n.height.toNat < k) (hkH : k ≤ H) :
    c.blocks.indexToBlockIndex n.computeParentIndex = c.blocks.indexToBlockIndex n ∧
    onPath H (c.blocks.indexToBlockIndex n) (nodeIndexToMorton n.computeParentIndex) k =
      onPath H (c.blocks.indexToBlockIndex n) (nodeIndexToMorton n) k := by
  have hn0 := hn.1; have hn1 := hn.2
  have hh := hb.height
  have hph : n.computeParentIndex.height = n.height + 1 := rfl
  have hp : NodeInHash c.blocks.maxHeight n.computeParentIndex := ⟨by omega, by omega⟩
  obtain ⟨j, hj⟩ := region_nonempty n
  have hjp := region_parent n hn0 hj
  have hblk : c.blocks.indexToBlockIndex n.computeParentIndex = c.blocks.indexToBlockIndex n :=
    (region_in_block hH' hb hp hjp).symm.trans (region_in_block hH' hb hn hj)
  refine ⟨hblk, ?_⟩
  refine C03_same_height_disjoint _ _ ?_ ?_ j ?_ ?_
  · rw [onPath_height _ _ hkH]; omega
  · rw [onPath_height _ _ hkH, onPath_height _ _ hkH]
  · have e := onPath_node (m := c.blocks) (by omega) hp
    rw [hh, hblk] at e
    refine onPath_region _ _ (show n.computeParentIndex.height.toNat ≤ k by omega) hkH j ?_
    rw [e]; exact hjp
  · have e := onPath_node (m := c.blocks) (by omega) hn
    rw [hh] at e
    refine onPath_region _ _ (show n.height.toNat ≤ k by omega) hkH j ?_
    rw [e]; exact hj

theorem Ok.getValueOrAncestor {H : Nat} (hH : 0 < H) (hH' : H < 20) {cl : OccClassifier} {K : CellClasses} {c : ClassifiedMap} (h : Ok H cl true K c)
    {n : NdtreeIndex 3} (hn : NodeQuery H n) (hlt : n.height < H) :
    ∃ r c', c.getValueOrAncestor n = some (r, c') ∧ Ok H cl true K c' ∧
      ((r = (none, (H : Int)) ∧ ∀ j, NodeRegion n j → ∀ k, ¬ K j k) ∨
       (∃ (a : NdtreeIndex 3) (mask : BitVec 8), r = (some mask, a.height) ∧ n.height ≤ a.height ∧ a.height < H ∧ (∀ j, NodeRegion n j → NodeRegion a j) ∧
         ExactMask K a mask ∧ (n.height < a.height → ∃ k, ∀ j, NodeRegion a j → K j k))) := by
  obtain ⟨C, hg, hq, hK⟩ := h.good
  obtain ⟨h1, h2⟩ := query_facts hH h.base hn
  have hh := h.base.height
  have hn0 := hn.1
  have hph : n.computeParentIndex.height = n.height + 1 := rfl
  have hp : NodeInHash c.blocks.maxHeight n.computeParentIndex := ⟨by omega, by omega⟩
  have hblk := (onPath_parent hH' h.base h1 hlt (k := H) (by omega) (Nat.le_refl _)).1
  obtain ⟨t, k, q, e, hq', hcase⟩ := getNodeOrAncestor_spec hg (by omega) hq hp (by rw [hblk]; exact h2)
  rw [hblk] at hcase
  refine ⟨(if t.isNil then (none, (H : Int)) else
      (some ((classData t).childOccupancyMask (mortonChild (nodeIndexToMorton n) k)), (k : Int) - 1)), { c with cache := q }, ?_,
    ⟨h.base, h.classifier, C, hg, hq', hK⟩, ?_⟩
  · unfold ClassifiedMap.getValueOrAncestor ClassifiedMap.getNodeOrAncestor
    rw [e]
    dsimp only [Option.map_some]
    rw [hh]
  · rcases hcase with ⟨hg0, ht, -⟩ | ⟨hx, hk1, hk2, hgood, huni⟩
    · left
      refine ⟨by rw [ht]; rfl, fun j hj k hk => ?_⟩
      obtain ⟨⟨x, hx⟩, -⟩ := (hK _ _).1 hk
      rw [region_in_block hH' h.base h1 hj, hg0] at hx
      cases hx
    · right
      rw [hph] at hk1 huni
      rw [hh] at hk2 hgood huni
      obtain ⟨k, rfl⟩ : ∃ k', k = k' + 1 := ⟨k - 1, by omega⟩
      have hnil : t.isNil = false := by
        have := hgood.ne_nil
        cases t <;> simp_all [NTree.isNil]
      have ep := (onPath_parent hH' h.base h1 hlt (k := k + 1) (by omega) hk2).2
      rw [ep] at hgood
      have estep := onPath_step (c.blocks.indexToBlockIndex n) (nodeIndexToMorton n) (show k < H by omega)
      have hmask := fun x => (inMask_child (classData t) (mortonChild (nodeIndexToMorton n) (k + 1)) x).trans ((hgood.2 _).1 x)
      rw [← estep] at hmask
      have hheight := onPath_height (H := H) (c.blocks.indexToBlockIndex n) (nodeIndexToMorton n) (k := k) (by omega)
      have hsub : ∀ j, NodeRegion n j → NodeRegion (onPath H (c.blocks.indexToBlockIndex n) (nodeIndexToMorton n) k) j := by
        intro j hj
        have e := onPath_node (m := c.blocks) (by omega) h1
        rw [hh] at e
        refine onPath_region _ _ (show n.height.toNat ≤ k by omega) (by omega) j ?_
        rw [e]; exact hj
      have ha : NodeInHash c.blocks.maxHeight (onPath H (c.blocks.indexToBlockIndex n) (nodeIndexToMorton n) k) := ⟨by omega, by omega⟩
      have hab : c.blocks.indexToBlockIndex (onPath H (c.blocks.indexToBlockIndex n) (nodeIndexToMorton n) k) = c.blocks.indexToBlockIndex n := by
        obtain ⟨j, hj⟩ := region_nonempty n
        exact (region_in_block hH' h.base ha (hsub j hj)).symm.trans (region_in_block hH' h.base h1 hj)
      refine ⟨onPath H (c.blocks.indexToBlockIndex n) (nodeIndexToMorton n) k, _, ?_, by omega, by omega, hsub,
        exactMask_of hH' h.base hK ha (by rw [hab]; exact hx) hmask, fun hka => ?_⟩
      · rw [if_neg (by simp [hnil]), hheight]; simp
      · rw [hheight] at hka
        have hu := huni (by omega)
        rw [Nat.add_sub_cancel, (onPath_parent hH' h.base h1 hlt (k := k) (by omega) (by omega)).2] at hu
        obtain ⟨x, hu⟩ := hu
        exact ⟨x, fun j hj => (hK _ _).2 ⟨by rw [region_in_block hH' h.base ha hj, hab]; exact hx, hu j hj⟩⟩

theorem Ok.functional {H : Nat} {cl : OccClassifier} {ex : Bool} {K : CellClasses} {c : ClassifiedMap} (h : Ok H cl ex K c) {j : Index 3} {k k' : OccClass}
    (h1 : K j k) (h2 : K j k') : k = k' := by
  obtain ⟨C, -, -, hK⟩ := h.good
  rw [← ((hK _ _).1 h1).2, ← ((hK _ _).1 h2).2]

theorem Ok.getValue {H : Nat} (hH : 0 < H) (hH' : H < 20) {cl : OccClassifier} {K : CellClasses} {c : ClassifiedMap} (h : Ok H cl true K c)
    {n : NdtreeIndex 3} (hn : NodeQuery H n) (hlt : n.height < H) :
    ∃ r c', c.getValue n = some (r, c') ∧ Ok H cl true K c' ∧
      ((r = none ∧ ∀ j, NodeRegion n j → ∀ k, ¬ K j k) ∨ ∃ mask, r = some mask ∧ ExactMask K n mask) := by
  obtain ⟨r, c', e, h1, hcase⟩ := h.getValueOrAncestor hH hH' hn hlt
  refine ⟨r.1, c', by unfold ClassifiedMap.getValue; rw [e]; rfl, h1, ?_⟩
  rcases hcase with ⟨hr, hn'⟩ | ⟨a, mask, hr, h2, h3, h4, ⟨m1, m2, m3⟩, hu⟩
  · left; exact ⟨by rw [hr], hn'⟩
  · right
    refine ⟨mask, by rw [hr], ?_⟩
    by_cases hlt' : n.height < a.height
    · obtain ⟨k0, hk0⟩ := hu hlt'
      obtain ⟨j0, hj0⟩ := region_nonempty n
      refine ⟨fun k => ?_, fun j hj => m2 j (h4 j hj), m3⟩
      rw [m1]
      constructor
      · rintro ⟨j, hj, hk⟩
        rw [h.functional hk (hk0 j hj)]
        exact ⟨j0, hj0, hk0 j0 (h4 j0 hj0)⟩
      · rintro ⟨j, hj, hk⟩; exact ⟨j, h4 j hj, hk⟩
    · obtain ⟨j0, hj0⟩ := region_nonempty n
      have : n = a := C03_same_height_disjoint n a hn.1 (by omega) j0 hj0 (h4 j0 hj0)
      rw [this]; exact ⟨m1, m2, m3⟩

/-- One step of a history without value queries. -/
theorem Ok.regional_step {H : Nat} (hH : 0 < H) (hH' : H < 20) {cl : OccClassifier} {K : CellClasses} {c : ClassifiedMap} (h : Ok H cl false K c)
    (o : ClassifiedOp) (hv : o.Valid H) (hr : o.IsRegional) : ∃ c', o.run c = some c' ∧ Ok H cl false (o.spec cl.threshold K) c' := by
  cases o with
  | update m => exact ⟨_, rfl, Ok.update h.base h.classifier hv.1 hv.2 false (by simp)⟩
  | updateEsdf m esdf radius => exact Ok.updateEsdf hH h.base h.classifier hv.1.1 hv.1.2 esdf radius hv.2 false (by simp)
  | has n mask =>
    obtain ⟨r, c', e, h1, -⟩ := h.has hH hH' hv mask
    exact ⟨c', by show (c.has n mask).map Prod.snd = _; rw [e]; rfl, h1⟩
  | isFully n mask =>
    obtain ⟨r, c', e, h1, -⟩ := h.isFully hH hH' hv mask
    exact ⟨c', by show (c.isFully n mask).map Prod.snd = _; rw [e]; rfl, h1⟩
  | getValue n => exact hr.elim
  | getNodeOrAncestor n => exact hr.elim
  | hasBlock b =>
    obtain ⟨r, c', e, h1, -⟩ := h.hasBlock hH hH' hv
    exact ⟨c', by show (c.hasBlock b).map Prod.snd = _; rw [e]; rfl, h1⟩

theorem Ok.regional {H : Nat} (hH : 0 < H) (hH' : H < 20) {cl : OccClassifier} (ops : List ClassifiedOp) : ∀ {K : CellClasses} {c : ClassifiedMap},
    Ok H cl false K c → (∀ o ∈ ops, o.Valid H ∧ o.IsRegional) →
    ∃ c', c.runAll ops = some c' ∧ Ok H cl false (ops.foldl (ClassifiedOp.spec cl.threshold) K) c' := by
  induction ops with
  | nil => intro K c h _; exact ⟨c, rfl, h⟩
  | cons o ops ih =>
    intro K c h ho
    obtain ⟨c1, e1, h1⟩ := h.regional_step hH hH' o (ho o List.mem_cons_self).1 (ho o List.mem_cons_self).2
    obtain ⟨c2, e2, h2⟩ := ih h1 fun o' ho' => ho o' (List.mem_cons_of_mem _ ho')
    refine ⟨c2, ?_, h2⟩
    unfold runAll at e2 ⊢
    rw [List.foldlM_cons, e1]
    exact e2

/-- One query on a map without superfluous nodes. -/
theorem Ok.query_step {H : Nat} (hH : 0 < H) (hH' : H < 20) {cl : OccClassifier} {K : CellClasses} {c : ClassifiedMap} (h : Ok H cl true K c)
    (o : ClassifiedOp) (hv : o.Valid H) (hr : ¬ o.IsUpdate) : ∃ c', o.run c = some c' ∧ Ok H cl true K c' ∧ o.spec cl.threshold K = K := by
  cases o with
  | update m => exact absurd trivial hr
  | updateEsdf m esdf radius => exact absurd trivial hr
  | has n mask =>
    obtain ⟨r, c', e, h1, -⟩ := h.has hH hH' hv mask
    exact ⟨c', by show (c.has n mask).map Prod.snd = _; rw [e]; rfl, h1, rfl⟩
  | isFully n mask =>
    obtain ⟨r, c', e, h1, -⟩ := h.isFully hH hH' hv mask
    exact ⟨c', by show (c.isFully n mask).map Prod.snd = _; rw [e]; rfl, h1, rfl⟩
  | getValue n =>
    obtain ⟨r, c', e, h1, -⟩ := h.getValue hH hH' hv.1 hv.2
    exact ⟨c', by show (c.getValue n).map Prod.snd = _; rw [e]; rfl, h1, rfl⟩
  | getNodeOrAncestor n =>
    obtain ⟨r, c', e, h1⟩ := h.getNodeOrAncestor hH hH' hv
    exact ⟨c', by show (c.getNodeOrAncestor n).map Prod.snd = _; rw [e]; rfl, h1, rfl⟩
  | hasBlock b =>
    obtain ⟨r, c', e, h1, -⟩ := h.hasBlock hH hH' hv
    exact ⟨c', by show (c.hasBlock b).map Prod.snd = _; rw [e]; rfl, h1, rfl⟩

theorem Ok.queries {H : Nat} (hH : 0 < H) (hH' : H < 20) {cl : OccClassifier} {K : CellClasses} (ops : List ClassifiedOp) : ∀ {c : ClassifiedMap},
    Ok H cl true K c → (∀ o ∈ ops, o.Valid H ∧ ¬ o.IsUpdate) → ∃ c', c.runAll ops = some c' ∧ Ok H cl true K c' := by
  induction ops with
  | nil => intro c h _; exact ⟨c, rfl, h⟩
  | cons o ops ih =>
    intro c h ho
    obtain ⟨c1, e1, h1, -⟩ := h.query_step hH hH' o (ho o List.mem_cons_self).1 (ho o List.mem_cons_self).2
    obtain ⟨c2, e2, h2⟩ := ih h1 fun o' ho' => ho o' (List.mem_cons_of_mem _ ho')
    refine ⟨c2, ?_, h2⟩
    unfold runAll at e2 ⊢
    rw [List.foldlM_cons, e1]
    exact e2

theorem Ok.single {H : Nat} (hH : 0 < H) (hH' : H < 20) (w : ℚ) (cl : OccClassifier) (u : ClassifiedOp) (hu : u.IsUpdate) (huv : u.Valid H)
    (qs : List ClassifiedOp) (hqs : ∀ o ∈ qs, o.Valid H ∧ ¬ o.IsUpdate) (K : CellClasses) :
    ∃ c, (create w H cl).runAll (u :: qs) = some c ∧ Ok H cl true (u.spec cl.threshold K) c := by
  have h1 : ∃ c1, u.run (create w H cl) = some c1 ∧ Ok H cl true (u.spec cl.threshold K) c1 := by
    cases u with
    | update m => exact ⟨_, rfl, Ok.update (create_base w H cl) rfl huv.1 huv.2 true (fun _ => rfl)⟩
    | updateEsdf m esdf radius => exact Ok.updateEsdf hH (create_base w H cl) rfl huv.1.1 huv.1.2 esdf radius huv.2 true (fun _ => rfl)
    | has => exact hu.elim
    | isFully => exact hu.elim
    | getValue => exact hu.elim
    | getNodeOrAncestor => exact hu.elim
    | hasBlock => exact hu.elim
  obtain ⟨c1, e1, h1⟩ := h1
  obtain ⟨c2, e2, h2⟩ := h1.queries hH hH' qs hqs
  refine ⟨c2, ?_, h2⟩
  unfold runAll at e2 ⊢
  rw [List.foldlM_cons, e1]
  exact e2

theorem uniform_cell (C : Index 3 → OccClass) (n : NdtreeIndex 3) (hn : n.height = 0) : Uniform C n := by
  refine ⟨C n.position, fun j hj => congrArg C ?_⟩
  funext i
  have := hj i
  rw [hn] at this
  simp at this
  omega

theorem good_depth {C : Index 3 → OccClass} : ∀ (h : Nat) (t : CTree) (n : NdtreeIndex 3), Good C true h t n → n.height = h →
    ∀ p : List (Fin (2 ^ 3)), h ≤ p.length → t.descend p = .nil := by
  intro h
  induction h with
  | zero => intro t n hg; exact hg.elim
  | succ h ih =>
    intro t n hg hn p hp
    cases p with
    | nil => simp at hp
    | cons c p =>
      rw [NTree.descend_cons]
      have hc : (n.computeChildIndex c.val).height = h := by show n.height - 1 = _; omega
      by_cases hu : Uniform C (n.computeChildIndex c.val)
      · rw [(hg.2 c).2.2 rfl hu, NTree.nil_descend]
      · exact ih _ _ ((hg.2 c).2.1 hu) hc p (by simpa using hp)

/-! ### Leaves -/

theorem exactMask_leaf {H : Nat} {K : CellClasses} {c : ClassifiedMap}
    {C : Index 3 → OccClass} (hK : ∀ j k, K j k ↔ (∃ x, c.blocks.blocks.getBlock (indexToBlockIndex H j) = some x) ∧ C j = k)
    {l : NdtreeIndex 3 × BitVec 8} {b : Index 3} (hx : ∃ x, c.blocks.blocks.getBlock b = some x)
    (hin : ∀ j, NodeRegion l.1 j → NodeRegion (⟨H, b⟩ : NdtreeIndex 3) j) (hmask : ∀ k, InMask l.2 k ↔ Occurs C l.1 k) :
    (∀ k, InMask l.2 k ↔ ∃ j, NodeRegion l.1 j ∧ K j k) ∧ ∀ j, NodeRegion l.1 j → K j (C j) := by
  have hall : ∀ j, NodeRegion l.1 j → K j (C j) := fun j hj => (hK _ _).2 ⟨by rw [block_region.1 (hin j hj)]; exact hx, rfl⟩
  refine ⟨fun k => ?_, hall⟩
  rw [hmask]
  constructor
  · rintro ⟨j, hj, rfl⟩; exact ⟨j, hj, hall j hj⟩
  · rintro ⟨j, hj, e⟩; exact ⟨j, hj, ((hK _ _).1 e).2⟩


theorem Ok.leavesMatching {H : Nat} {cl : OccClassifier} {ex : Bool} {K : CellClasses} {c : ClassifiedMap} (h : Ok H cl ex K c)
    (mask : BitVec 8) (term : Int) :
    (∀ l ∈ c.forEachLeafMatching mask term,
      (0 ≤ l.1.height ∧ l.1.height < H) ∧ (∀ k, InMask l.2 k ↔ ∃ j, NodeRegion l.1 j ∧ K j k) ∧ RegionHas K l.1 mask ∧
      (term < l.1.height → RegionIsFully K l.1 mask)) ∧
    ∀ j, ((c.forEachLeafMatching mask term).filter (fun l => decide (NodeRegion l.1 j))).length ≤ 1 ∧
      ((∃ k, K j k ∧ InMask mask k) → ∃ l ∈ c.forEachLeafMatching mask term, NodeRegion l.1 j) := by
  obtain ⟨C, hg, -, hK⟩ := h.good
  have hh := h.base.height
  have hblock : ∀ e ∈ c.blocks.blocks, c.blocks.blocks.getBlock e.1 = some e.2 := fun e he => SpatialHash.getBlock_of_mem h.base.nodup he
  have hgood : ∀ e ∈ c.blocks.blocks, Good C ex H e.2.root ⟨H, e.1⟩ := fun e he => by
    have := hg e.1 e.2 (hblock e he); rw [hh] at this; exact this
  have hmh : ∀ e ∈ c.blocks.blocks, e.2.maxHeight = H := fun e he => (h.base.block _ _ (hblock e he)).1
  have hlist : c.forEachLeafMatching mask term = c.blocks.blocks.flatMap fun e => CTree.leavesMatching mask term e.2.root ⟨H, e.1⟩ := by
    unfold forEachLeafMatching
    exact List.flatMap_congr fun e he => by rw [hmh e he]
  rw [hlist]
  constructor
  · intro l hl
    obtain ⟨e, he, hl⟩ := List.mem_flatMap.1 hl
    obtain ⟨h1, h2, h3, h4, h5⟩ := matching_ok mask term H e.2.root ⟨H, e.1⟩ (hgood e he) rfl l hl
    obtain ⟨k1, k2⟩ := exactMask_leaf hK ⟨_, hblock e he⟩ h5 h1
    refine ⟨h4, k1, ?_, fun ht j hj => ⟨C j, k2 j hj, h3 ht _ ⟨j, hj, rfl⟩⟩⟩
    obtain ⟨k, ⟨j, hj, rfl⟩, hm⟩ := h2
    exact ⟨j, C j, hj, k2 j hj, hm⟩
  · intro j
    have hout : ∀ e ∈ c.blocks.blocks, e.1 ≠ indexToBlockIndex H j →
        (CTree.leavesMatching mask term e.2.root ⟨H, e.1⟩).filter (fun l => decide (NodeRegion l.1 j)) = [] := by
      intro e he hne
      refine filter_outside _ ⟨H, e.1⟩ (fun l hl => (matching_ok mask term H e.2.root ⟨H, e.1⟩ (hgood e he) rfl l hl).inside) j ?_
      rw [block_region]; exact fun hb => hne hb.symm
    cases hb : c.blocks.blocks.getBlock (indexToBlockIndex H j) with
    | none =>
      have : (c.blocks.blocks.flatMap fun e => CTree.leavesMatching mask term e.2.root ⟨H, e.1⟩).filter (fun l => decide (NodeRegion l.1 j)) = [] := by
        rw [List.filter_flatMap, List.flatMap_eq_nil_iff]
        intro e he
        refine hout e he fun hE => ?_
        have := hblock e he
        rw [hE, hb] at this; cases this
      rw [this]
      refine ⟨Nat.zero_le _, ?_⟩
      rintro ⟨k, hk, -⟩
      obtain ⟨⟨x, hx⟩, -⟩ := (hK _ _).1 hk
      rw [hb] at hx; cases hx
    | some b =>
      rw [filter_flatMap_blocks _ h.base.nodup _ _ _ b hb hout]
      have hmem := SpatialHash.mem_of_getBlock hb
      obtain ⟨h1, h2⟩ := matching_cover mask term j H b.root ⟨H, indexToBlockIndex H j⟩ (hgood _ hmem) rfl (block_region.2 rfl)
      refine ⟨h1, ?_⟩
      rintro ⟨k, hk, hm⟩
      rw [← ((hK _ _).1 hk).2] at hm
      obtain ⟨l, hl⟩ := h2 hm
      have hl' : l ∈ (CTree.leavesMatching mask term b.root ⟨H, indexToBlockIndex H j⟩).filter (fun e => decide (NodeRegion e.1 j)) := by
        rw [hl]; exact List.mem_singleton_self _
      rw [List.mem_filter, decide_eq_true_eq] at hl'
      exact ⟨l, List.mem_flatMap.2 ⟨_, hmem, hl'.1⟩, hl'.2⟩

theorem Ok.leaves {H : Nat} {cl : OccClassifier} {K : CellClasses} {c : ClassifiedMap} (h : Ok H cl true K c) (term : Int) :
    (∀ l ∈ c.forEachLeaf term,
      (0 ≤ l.1.height ∧ l.1.height < H) ∧ (∀ k, InMask l.2 k ↔ ∃ j, NodeRegion l.1 j ∧ K j k) ∧
      (term < l.1.height → ∃ k, ∀ j, NodeRegion l.1 j → K j k)) ∧
    ∀ j, ((c.forEachLeaf term).filter (fun l => decide (NodeRegion l.1 j))).length = 1 ↔ ∃ k, K j k := by
  obtain ⟨C, hg, -, hK⟩ := h.good
  have hh := h.base.height
  have hblock : ∀ e ∈ c.blocks.blocks, c.blocks.blocks.getBlock e.1 = some e.2 := fun e he => SpatialHash.getBlock_of_mem h.base.nodup he
  have hgood : ∀ e ∈ c.blocks.blocks, Good C true H e.2.root ⟨H, e.1⟩ := fun e he => by
    have := hg e.1 e.2 (hblock e he); rw [hh] at this; exact this
  have hmh : ∀ e ∈ c.blocks.blocks, e.2.maxHeight = H := fun e he => (h.base.block _ _ (hblock e he)).1
  have hlist : c.forEachLeaf term = c.blocks.blocks.flatMap fun e => CTree.leaves term e.2.root ⟨H, e.1⟩ := by
    unfold forEachLeaf
    exact List.flatMap_congr fun e he => by rw [hmh e he]
  rw [hlist]
  constructor
  · intro l hl
    obtain ⟨e, he, hl⟩ := List.mem_flatMap.1 hl
    obtain ⟨h1, h2, h4, h5⟩ := leaves_ok term H e.2.root ⟨H, e.1⟩ (hgood e he) rfl l hl
    obtain ⟨k1, k2⟩ := exactMask_leaf hK ⟨_, hblock e he⟩ h5 h1
    refine ⟨h4, k1, fun ht => ?_⟩
    obtain ⟨k, hk⟩ := h2 ht
    exact ⟨k, fun j hj => by rw [← hk j hj]; exact k2 j hj⟩
  · intro j
    have hout : ∀ e ∈ c.blocks.blocks, e.1 ≠ indexToBlockIndex H j →
        (CTree.leaves term e.2.root ⟨H, e.1⟩).filter (fun l => decide (NodeRegion l.1 j)) = [] := by
      intro e he hne
      refine filter_outside _ ⟨H, e.1⟩ (fun l hl => (leaves_ok term H e.2.root ⟨H, e.1⟩ (hgood e he) rfl l hl).inside) j ?_
      rw [block_region]; exact fun hb => hne hb.symm
    cases hb : c.blocks.blocks.getBlock (indexToBlockIndex H j) with
    | none =>
      have : (c.blocks.blocks.flatMap fun e => CTree.leaves term e.2.root ⟨H, e.1⟩).filter (fun l => decide (NodeRegion l.1 j)) = [] := by
        rw [List.filter_flatMap, List.flatMap_eq_nil_iff]
        intro e he
        refine hout e he fun hE => ?_
        have := hblock e he
        rw [hE, hb] at this; cases this
      rw [this]
      refine ⟨fun h => by simp at h, ?_⟩
      rintro ⟨k, hk⟩
      obtain ⟨⟨x, hx⟩, -⟩ := (hK _ _).1 hk
      rw [hb] at hx; cases hx
    | some b =>
      rw [filter_flatMap_blocks _ h.base.nodup _ _ _ b hb hout]
      have hmem := SpatialHash.mem_of_getBlock hb
      obtain ⟨l, hl⟩ := leaves_cover term j H b.root ⟨H, indexToBlockIndex H j⟩ (hgood _ hmem) rfl (block_region.2 rfl)
      rw [hl]
      exact ⟨fun _ => ⟨C j, (hK _ _).2 ⟨⟨b, hb⟩, rfl⟩⟩, fun _ => rfl⟩

end ClassifiedMap

/-! ## C26 -/

open ClassifiedMap

/-- C26: after any sequence of updates and region queries, with any occupancy and distance maps, `has` and `isFully` answer as if every
cell of the region were classified from the last occupancy map.

Not proved here: histories that also contain value queries (`C26_values_partial` has them for a single update), since
`C26_stale_nodes_break_has_fails` refutes it, and tree height 20, which `C26_tree_height_20_fails` refutes. -/
theorem C26_regions_partial (w : ℚ) (H : Nat) (hH : 0 < H) (hH' : H < 20) (cl : OccClassifier) (ops : List ClassifiedOp)
    (hops : ∀ o ∈ ops, o.Valid H ∧ o.IsRegional) :
    ∃ c, (ClassifiedMap.create w H cl).runAll ops = some c ∧ (∀ j, Int32Index j →
      ∃ r c', c.hasBlock (indexToBlockIndex H j) = some (r, c') ∧
        (r = true ↔ ∃ j' k, SameBlock H j j' ∧ (ops.foldl (ClassifiedOp.spec cl.threshold) fun _ _ => False) j' k)) ∧
      ∀ n, NodeQuery H n → ∀ mask,
      (∃ r c', c.has n mask = some (r, c') ∧
        (r = true ↔ RegionHas (ops.foldl (ClassifiedOp.spec cl.threshold) fun _ _ => False) n mask)) ∧
      (∃ r c', c.isFully n mask = some (r, c') ∧
        (r = true ↔ RegionIsFully (ops.foldl (ClassifiedOp.spec cl.threshold) fun _ _ => False) n mask)) := by
  obtain ⟨c, e, h⟩ := (create_ok w H cl false).regional hH hH' ops hops
  refine ⟨c, e, fun j hj => ?_, fun n hn mask => ⟨?_, ?_⟩⟩
  · obtain ⟨r, c', e, -, hr⟩ := h.hasBlock hH hH' ⟨j, hj, rfl⟩
    refine ⟨r, c', e, hr.trans ?_⟩
    simp only [sameBlock_iff, eq_comm]
  · obtain ⟨r, c', e, -, hr⟩ := h.has hH hH' hn mask
    exact ⟨r, c', e, hr⟩
  · obtain ⟨r, c', e, -, hr⟩ := h.isFully hH hH' hn mask
    exact ⟨r, c', e, hr⟩

/-- C26: an update with a distance map never yields classes for another robot or another grid: it aborts (`none`) if distances in the map do not reach up to
the robot's radius, or if the cell widths differ by more than 10⁻⁶. -/
theorem C26_incompatible_distances (c : ClassifiedMap) (m : HashedWaveletOctree) (esdf : HashedBlocks) (radius : ℚ)
    (h : esdf.hash.defaultValue < radius ∨ esdf.config.maxLogOdds < radius ∨ 1 / 1000000 < |esdf.config.minCellWidth - m.config.minCellWidth|) :
    c.updateEsdf m esdf radius = none := by
  refine if_neg fun hc => ?_
  rcases h with h | h | h
  · exact absurd hc.1 (not_le.2 h)
  · exact absurd hc.2.1 (not_le.2 h)
  · exact absurd hc.2.2 (not_le.2 h)

/-- C26: the leaves matching a mask. They are disjoint, cover exactly the cells whose class is in the mask (above the termination height;
at it, leaves that have such a cell), and carry the exact set of classes of their region. -/
theorem C26_matching_leaves_partial (w : ℚ) (H : Nat) (hH : 0 < H) (hH' : H < 20) (cl : OccClassifier) (ops : List ClassifiedOp)
    (hops : ∀ o ∈ ops, o.Valid H ∧ o.IsRegional) (mask : BitVec 8) (term : Int) :
    ∃ c, (ClassifiedMap.create w H cl).runAll ops = some c ∧
      let K := ops.foldl (ClassifiedOp.spec cl.threshold) fun _ _ => False
      (∀ l ∈ c.forEachLeafMatching mask term,
        (0 ≤ l.1.height ∧ l.1.height < H) ∧ (∀ k, InMask l.2 k ↔ ∃ j, NodeRegion l.1 j ∧ K j k) ∧ RegionHas K l.1 mask ∧
        (term < l.1.height → RegionIsFully K l.1 mask)) ∧
      ∀ j, ((c.forEachLeafMatching mask term).filter (fun l => decide (NodeRegion l.1 j))).length ≤ 1 ∧
        ((∃ k, K j k ∧ InMask mask k) → ∃ l ∈ c.forEachLeafMatching mask term, NodeRegion l.1 j) := by
  obtain ⟨c, e, h⟩ := (create_ok w H cl false).regional hH hH' ops hops
  exact ⟨c, e, h.leavesMatching mask term⟩

/-- C26: after one update of a new map (what the constructors do) and any sequence of queries of all kinds, `has`, `isFully`,
`getValue`, `getValueOrAncestor` and `forEachLeaf` agree with the classes of the cells.

Not proved: the same after a second update, since `C26_stale_values_fails` refutes it. -/
theorem C26_values_partial (w : ℚ) (H : Nat) (hH : 0 < H) (hH' : H < 20) (cl : OccClassifier) (u : ClassifiedOp) (hu : u.IsUpdate) (huv : u.Valid H)
    (qs : List ClassifiedOp) (hqs : ∀ o ∈ qs, o.Valid H ∧ ¬ o.IsUpdate) :
    ∃ c, (ClassifiedMap.create w H cl).runAll (u :: qs) = some c ∧
      let K := u.spec cl.threshold fun _ _ => False
      (∀ n, NodeQuery H n → ∀ mask,
        (∃ r c', c.has n mask = some (r, c') ∧ (r = true ↔ RegionHas K n mask)) ∧
        (∃ r c', c.isFully n mask = some (r, c') ∧ (r = true ↔ RegionIsFully K n mask))) ∧
      (∀ n, NodeQuery H n → n.height < H →
        (∃ r c', c.getValue n = some (r, c') ∧
          ((r = none ∧ ∀ j, NodeRegion n j → ∀ k, ¬ K j k) ∨ ∃ mask, r = some mask ∧ ExactMask K n mask)) ∧
        (∃ r c', c.getValueOrAncestor n = some (r, c') ∧
          ((r = (none, (H : Int)) ∧ ∀ j, NodeRegion n j → ∀ k, ¬ K j k) ∨
           (∃ (a : NdtreeIndex 3) (mask : BitVec 8), r = (some mask, a.height) ∧ n.height ≤ a.height ∧ a.height < H ∧
             (∀ j, NodeRegion n j → NodeRegion a j) ∧ ExactMask K a mask ∧
             (n.height < a.height → ∃ k, ∀ j, NodeRegion a j → K j k))))) ∧
      ∀ term, (∀ l ∈ c.forEachLeaf term,
          (0 ≤ l.1.height ∧ l.1.height < H) ∧ (∀ k, InMask l.2 k ↔ ∃ j, NodeRegion l.1 j ∧ K j k) ∧
          (term < l.1.height → ∃ k, ∀ j, NodeRegion l.1 j → K j k)) ∧
        ∀ j, ((c.forEachLeaf term).filter (fun l => decide (NodeRegion l.1 j))).length = 1 ↔ ∃ k, K j k := by
  obtain ⟨c, e, h⟩ := Ok.single hH hH' w cl u hu huv qs hqs fun _ _ => False
  refine ⟨c, e, fun n hn mask => ⟨?_, ?_⟩, fun n hn hlt => ⟨?_, ?_⟩, fun term => h.leaves term⟩
  · obtain ⟨r, c', e, -, hr⟩ := h.has hH hH' hn mask
    exact ⟨r, c', e, hr⟩
  · obtain ⟨r, c', e, -, hr⟩ := h.isFully hH hH' hn mask
    exact ⟨r, c', e, hr⟩
  · obtain ⟨r, c', e, -, hr⟩ := h.getValue hH hH' hn hlt
    exact ⟨r, c', e, hr⟩
  · obtain ⟨r, c', e, -, hr⟩ := h.getValueOrAncestor hH hH' hn hlt
    exact ⟨r, c', e, hr⟩

/-! ### Where the code does not do this -/

/-- A map with two occupied cells in one block. -/
def classifyBefore : HashedWaveletOctree :=
  [HashedWaveletOp.write (.add (fun _ => 0) 1 0), .write (.add (fun _ => 3) 1 0)].foldl HashedWaveletOp.run (.create ⟨1, -2, 4, 2, 5⟩)

/-- The same map after the first of the cells was reset to 0, pruned. -/
def classifyAfter : HashedWaveletOctree :=
  [HashedWaveletOp.write (.add (fun _ => 0) 1 0), .write (.add (fun _ => 3) 1 0), .write (.add (fun _ => 0) (-1) 0), .prune].foldl
    HashedWaveletOp.run (.create ⟨1, -2, 4, 2, 5⟩)

theorem classifyBefore_ok : classifyBefore.Reachable ∧ classifyBefore.config.treeHeight = 2 :=
  ⟨⟨_, by decide +kernel, by decide, _, rfl⟩, rfl⟩

theorem classifyAfter_ok : classifyAfter.Reachable ∧ classifyAfter.config.treeHeight = 2 :=
  ⟨⟨_, by decide +kernel, by decide, _, rfl⟩, by decide +kernel⟩

/-- The region of the first eight cells is unobserved. -/
theorem classifyAfter_region (j : Index 3) (hj : NodeRegion (⟨1, fun _ => 0⟩ : NdtreeIndex 3) j) : classifyAfter.Classes 0 j .unobserved := by
  have h : ∀ i, j i = 0 ∨ j i = 1 := fun i => by
    have := hj i
    simp at this
    omega
  have hE : j = ![j 0, j 1, j 2] := by funext i; fin_cases i <;> rfl
  rw [hE]
  unfold HashedWaveletOctree.Classes IsClass
  rcases h 0 with h0 | h0 <;> rcases h 1 with h1 | h1 <;> rcases h 2 with h2 | h2 <;> rw [h0, h1, h2] <;> decide +kernel

/-- After a second update, `getValue` and `forEachLeaf` return classes from the first: the cell is unobserved in the occupancy map of
the last update, and still reported as occupied. -/
theorem C26_stale_values_fails :
    classifyAfter.Classes 0 (fun _ => 0) .unobserved ∧
    (∀ o ∈ [ClassifiedOp.update classifyBefore, .update classifyAfter], o.Valid 2 ∧ o.IsRegional) ∧
    ∃ c, (ClassifiedMap.create 1 2 ⟨0⟩).runAll [.update classifyBefore, .update classifyAfter] = some c ∧
      (c.getValue ⟨0, fun _ => 0⟩).map Prod.fst = some (some OccId.occupied.toMask) ∧
      ∃ l ∈ c.forEachLeaf 0, l.1.height = 0 ∧ l.1.position = (fun _ => 0) ∧ l.2 = OccId.occupied.toMask := by
  refine ⟨classifyAfter_region _ (by decide), ?_, _, rfl, by decide +kernel, ?_⟩
  · intro o ho
    simp only [List.mem_cons, List.not_mem_nil, or_false] at ho
    rcases ho with rfl | rfl
    · exact ⟨classifyBefore_ok, trivial⟩
    · exact ⟨classifyAfter_ok, trivial⟩
  · have : ((((ClassifiedMap.create 1 2 ⟨0⟩).update classifyBefore).update classifyAfter).forEachLeaf 0).any
      (fun l => decide (l.1.height = 0 ∧ l.1.position = (fun _ => 0) ∧ l.2 = OccId.occupied.toMask)) = true := by decide +kernel
    obtain ⟨l, hl, hd⟩ := List.any_eq_true.1 this
    exact ⟨l, hl, of_decide_eq_true hd⟩

/-- A value query after a second update also makes `has` wrong: it then says that a region contains an occupied cell that has none. -/
theorem C26_stale_nodes_break_has_fails :
    ¬ RegionHas (classifyAfter.Classes 0) ⟨1, fun _ => 0⟩ OccId.occupied.toMask ∧
    (∀ o ∈ [ClassifiedOp.update classifyBefore, .update classifyAfter, .getValue ⟨0, fun _ => 0⟩], o.Valid 2) ∧
    ∃ c, (ClassifiedMap.create 1 2 ⟨0⟩).runAll [.update classifyBefore, .update classifyAfter, .getValue ⟨0, fun _ => 0⟩] = some c ∧
      (c.has ⟨1, fun _ => 0⟩ OccId.occupied.toMask).map Prod.fst = some true := by
  refine ⟨?_, ?_, ?_⟩
  · rintro ⟨j, k, hj, hk, hm⟩
    have h1 := (classifyAfter_region j hj).2
    obtain ⟨k0, -, hu⟩ := C27_exactly_one_class 0 (classifyAfter.getCellValue j)
    have : k = .unobserved := (hu _ hk.2).trans (hu _ h1).symm
    rw [this] at hm
    revert hm; decide
  · intro o ho
    simp only [List.mem_cons, List.not_mem_nil, or_false] at ho
    rcases ho with rfl | rfl | rfl
    · exact classifyBefore_ok
    · exact classifyAfter_ok
    · exact ⟨⟨by decide, by decide, by unfold Int32Index; decide⟩, by decide⟩
  · have h : ((((ClassifiedMap.create 1 2 ⟨0⟩).runAll [.update classifyBefore, .update classifyAfter, .getValue ⟨0, fun _ => 0⟩]).bind
      fun c => c.has ⟨1, fun _ => 0⟩ OccId.occupied.toMask).map Prod.fst) = some true := by decide +kernel
    cases hc : (ClassifiedMap.create 1 2 ⟨0⟩).runAll [.update classifyBefore, .update classifyAfter, .getValue ⟨0, fun _ => 0⟩] with
    | none => rw [hc] at h; cases h
    | some c => rw [hc] at h; exact ⟨c, rfl, h⟩

/-- A cell in a block that is not allocated has value 0 in the occupancy map, which classifies as unobserved. The classified map
answers `false` to the question whether it contains an unobserved cell. -/
theorem C26_unallocated_unobserved_fails :
    IsClass 0 (classifyBefore.getCellValue fun _ => 7) .unobserved ∧
    ∃ c, (ClassifiedMap.create 1 2 ⟨0⟩).runAll [.update classifyBefore] = some c ∧
      (c.has ⟨0, fun _ => 7⟩ OccId.unobserved.toMask).map Prod.fst = some false ∧
      (c.isFully ⟨0, fun _ => 7⟩ OccId.unobserved.toMask).map Prod.fst = some false := by
  refine ⟨by unfold IsClass; decide +kernel, _, rfl, by decide +kernel, by decide +kernel⟩

/-- `hasNode` is true for nodes at every height of an allocated block: `getNode` returns the nearest ancestor instead of null. -/
theorem C26_has_node_fails :
    ∃ c, (ClassifiedMap.create 1 2 ⟨0⟩).runAll [.update classifyBefore] = some c ∧
      (c.hasNode ⟨0, fun _ => 0⟩).map Prod.fst = some true ∧ ∀ e ∈ c.blocks.blocks, ∀ p : List (Fin (2 ^ 3)), 2 ≤ p.length → e.2.root.descend p = .nil := by
  obtain ⟨c, e, h⟩ := Ok.single (by decide) (by decide) 1 ⟨0⟩ (.update classifyBefore) trivial classifyBefore_ok [] (by simp) fun _ _ => False
  refine ⟨c, e, ?_, fun b hb p hp => ?_⟩
  · have hd : ((ClassifiedMap.create 1 2 ⟨0⟩).runAll [.update classifyBefore]).map (fun c => (c.hasNode ⟨0, fun _ => 0⟩).map Prod.fst) = some (some true) := by
      decide +kernel
    rw [e] at hd
    exact Option.some.inj hd
  · obtain ⟨C, hg, -⟩ := h.good
    have := hg b.1 b.2 (SpatialHash.getBlock_of_mem h.base.nodup hb)
    rw [h.base.height] at this
    exact good_depth 2 _ _ this rfl p hp

/-- With tree height 20, every region query in an allocated block writes past the end of the node stack. -/
theorem C26_tree_height_20_fails :
    HashedWaveletOctreeConfig.isValid ⟨1, -2, 4, 20, 5⟩ = true ∧
    ∀ (m : HashedWaveletOctree) (cl : OccClassifier) (n : NdtreeIndex 3) (mask : BitVec 8), m.Reachable → m.config.treeHeight = 20 → NodeQuery 20 n →
      (∃ j, NodeRegion n j ∧ m.Allocated j) → (ClassifiedMap.ofMap m cl).has n mask = none ∧ (ClassifiedMap.ofMap m cl).isFully n mask = none := by
  refine ⟨by decide +kernel, fun m cl n mask hm hH hn hj => ?_⟩
  obtain ⟨j, hj, ha⟩ := hj
  have hb : Base (ClassifiedMap.create m.config.minCellWidth m.config.treeHeight cl).blocks 20 := by rw [hH]; exact create_base _ _ _
  have h : Ok 20 cl true (m.Classes cl.threshold) (ClassifiedMap.ofMap m cl) := Ok.update hb rfl hm hH true (fun _ => rfl)
  obtain ⟨h1, h2⟩ := query_facts (by decide) h.base hn
  have hx : ∃ x, (ClassifiedMap.ofMap m cl).blocks.blocks.getBlock ((ClassifiedMap.ofMap m cl).blocks.indexToBlockIndex n) = some x := by
    obtain ⟨C, -, -, hK⟩ := h.good
    obtain ⟨k, hk, -⟩ := C27_exactly_one_class cl.threshold (m.getCellValue j)
    have := ((hK j k).1 ⟨ha, hk⟩).1
    rw [region_in_block' (Nat.le_refl _) h.base h1 hj] at this
    exact this
  obtain ⟨x, hx⟩ := hx
  have hst : QueryCache.start (ClassifiedMap.ofMap m cl).blocks (ClassifiedMap.ofMap m cl).cache n = none := by
    unfold QueryCache.start QueryCache.getBlock
    have hq : (ClassifiedMap.ofMap m cl).cache.blockIndex = noBlockIndex := rfl
    dsimp only
    rw [hq, if_pos h2, hx]
    dsimp only
    rw [h.base.height]
    rfl
  constructor
  · unfold ClassifiedMap.has QueryCache.has QueryCache.region
    rw [hst]; rfl
  · unfold ClassifiedMap.isFully QueryCache.isFully QueryCache.region
    rw [hst]; rfl

/-- The hypotheses of `C26_regions_partial` and `C26_values_partial` are met by histories with updates of both kinds and queries
across block borders. -/
example :
    (∀ o ∈ [ClassifiedOp.update classifyBefore, .has ⟨1, fun _ => 0⟩ 2, .updateEsdf classifyAfter ((HashedBlocks.create ⟨1, -10, 10⟩ 5).setCellValue (fun _ => 0) 1) 3, .isFully ⟨2, fun _ => -1⟩ 4,
        .hasBlock (fun _ => -1)], o.Valid 2 ∧ o.IsRegional) ∧
    (ClassifiedOp.updateEsdf classifyAfter ((HashedBlocks.create ⟨1, -10, 10⟩ 5).setCellValue (fun _ => 0) 1) 3).IsUpdate ∧
    (∀ o ∈ [ClassifiedOp.getValue ⟨1, fun _ => 0⟩, .getNodeOrAncestor ⟨2, fun _ => -3⟩], o.Valid 2 ∧ ¬ o.IsUpdate) := by
  refine ⟨fun o ho => ?_, trivial, fun o ho => ?_⟩
  · simp only [List.mem_cons, List.not_mem_nil, or_false] at ho
    rcases ho with rfl | rfl | rfl | rfl | rfl
    · exact ⟨classifyBefore_ok, trivial⟩
    · exact ⟨⟨by decide, by decide, by unfold Int32Index; decide⟩, trivial⟩
    · exact ⟨⟨classifyAfter_ok, by decide +kernel, by decide +kernel, by decide +kernel⟩, trivial⟩
    · exact ⟨⟨by decide, by decide, by unfold Int32Index; decide⟩, trivial⟩
    · exact ⟨⟨fun _ => -1, by unfold Int32Index; decide, by decide⟩, trivial⟩
  · simp only [List.mem_cons, List.not_mem_nil, or_false] at ho
    rcases ho with rfl | rfl
    · exact ⟨⟨⟨by decide, by decide, by unfold Int32Index; decide⟩, by decide⟩, id⟩
    · exact ⟨⟨by decide, by decide, by unfold Int32Index; decide⟩, id⟩

end Wavemap
