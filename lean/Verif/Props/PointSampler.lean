import Verif.Model.PointSampler
import Verif.Props.ClassifiedMap
import Verif.Props.Points
/-!
# C62: random points have the requested class and lie in the requested box
-/
namespace Wavemap
open ClassifiedMap

/-! ## Specification -/

/-- The draws of a generator of numbers in `[0, 1]`. -/
def Draws.Ok (d : Draws) : Prop := ∀ i k, 0 ≤ d.unit i k ∧ d.unit i k ≤ 1

/-- The closed box. -/
def InClosedBox (lo hi p : Point 3) : Prop := ∀ k, lo k ≤ p k ∧ p k ≤ hi k

/-- The closed cube of a block of `2^H` cells per side. -/
def InClosedBlock (w : ℚ) (H : Nat) (b : Index 3) (p : Point 3) : Prop := ∀ k, b k * (w * 2 ^ H) ≤ p k ∧ p k ≤ (b k + 1) * (w * 2 ^ H)

/-- Where points are looked for: in the box, or else in the blocks with classified cells. -/
def SampleRegion (w : ℚ) (H : Nat) (K : CellClasses) (aabb : Option (Point 3 × Point 3)) (p : Point 3) : Prop :=
  match aabb with
  | some (lo, hi) => InClosedBox lo hi p
  | none => ∃ b, (∃ j k, InBlock H b j ∧ K j k) ∧ InClosedBlock w H b p

/-! ## Proofs -/

namespace PointSampler

theorem realNumber_range {lo hi u : ℚ} (h : lo ≤ hi) (hu : 0 ≤ u ∧ u ≤ 1) : lo ≤ realNumber lo hi u ∧ realNumber lo hi u ≤ hi := by
  unfold realNumber
  have h1 := mul_nonneg hu.1 (sub_nonneg.2 h)
  have h2 := mul_nonneg (sub_nonneg.2 hu.2) (sub_nonneg.2 h)
  constructor <;> linarith

theorem candidate_region {H : Nat} {cl : OccClassifier} {ex : Bool} {K : CellClasses} {c : ClassifiedMap} (h : Ok H cl ex K c) (hw : 0 < c.minCellWidth)
    (aabb : Option (Point 3 × Point 3)) (hbox : ∀ lo hi, aabb = some (lo, hi) → ∀ k, lo k ≤ hi k) (draws : Draws) (hd : draws.Ok) (i : Nat) {p : Point 3}
    (hp : candidate c aabb draws i = some p) : SampleRegion c.minCellWidth H K aabb p := by
  unfold candidate at hp
  unfold SampleRegion
  cases aabb with
  | some x =>
    obtain ⟨lo, hi⟩ := x
    cases hp
    exact fun k => realNumber_range (hbox lo hi rfl k) (hd i k)
  | none =>
    dsimp only at hp ⊢
    obtain ⟨b, hb, hp⟩ := Option.map_eq_some_iff.1 hp
    unfold randomBlock at hb
    obtain ⟨e, he, hb⟩ := Option.map_eq_some_iff.1 hb
    have hmem := List.mem_of_getElem? he
    obtain ⟨C, -, -, hK⟩ := h.good
    have hget := SpatialHash.getBlock_of_mem h.base.nodup hmem
    have hib : InBlock H b fun i => 2 ^ H * b i := by
      intro k
      have := two_pow_pos' H
      dsimp only
      constructor
      · exact Int.le_refl _
      · rw [Int.mul_add, Int.mul_one]; omega
    refine ⟨b, ⟨fun i => 2 ^ H * b i, C _, hib, (hK _ _).2 ⟨⟨e.2, ?_⟩, rfl⟩⟩, ?_⟩
    · rw [(inBlock_iff _ _).1 hib, ← hb]; exact hget
    · rw [← hp]
      intro k
      unfold pointInBlock pointInAabb nodeIndexToMinCorner nodeIndexToMaxCorner indexToMinCorner indexToMaxCorner heightToCellWidth
      rw [exp2_eq, h.base.height]
      have hpos : 0 < c.minCellWidth * (2 ^ H : ℚ) := by positivity
      have := realNumber_range (lo := b k * (c.minCellWidth * 2 ^ H)) (hi := (b k + 1) * (c.minCellWidth * 2 ^ H)) (by nlinarith) (hd i k)
      simpa using this

theorem candidate_congr {c c' : ClassifiedMap} (hb : c'.blocks = c.blocks) (hw : c'.minCellWidth = c.minCellWidth) (aabb : Option (Point 3 × Point 3))
    (draws : Draws) (i : Nat) : candidate c' aabb draws i = candidate c aabb draws i := by
  unfold candidate randomBlock pointInBlock
  rw [hb, hw]

theorem isFully_same {c c' : ClassifiedMap} {n : NdtreeIndex 3} {mask : BitVec 8} {r : Bool} (h : c.isFully n mask = some (r, c')) :
    c'.blocks = c.blocks ∧ c'.minCellWidth = c.minCellWidth := by
  unfold ClassifiedMap.isFully at h
  obtain ⟨x, -, e⟩ := Option.map_eq_some_iff.1 h
  cases e
  exact ⟨rfl, rfl⟩

theorem cell_query {H : Nat} (j : Index 3) (hj : Int32Index j) : NodeQuery H ⟨0, j⟩ := by
  refine ⟨Int.le_refl _, Int.natCast_nonneg H, ?_⟩
  have : nodeIndexToMinCornerIndex (⟨0, j⟩ : NdtreeIndex 3) = j := by
    funext i; simp [nodeIndexToMinCornerIndex, multExp2_eq]
  rw [this]; exact hj

theorem cell_fully (K : CellClasses) (j : Index 3) (mask : BitVec 8) : RegionIsFully K ⟨0, j⟩ mask ↔ ∃ k, K j k ∧ InMask mask k := by
  unfold RegionIsFully
  constructor
  · exact fun h => h j fun i => by simp
  · intro h j' hj'
    have : j' = j := by
      funext i
      have := hj' i
      simp at this
      omega
    rw [this]; exact h

theorem attempts_spec {H : Nat} (hH : 0 < H) (hH' : H < 20) {cl : OccClassifier} {ex : Bool} {K : CellClasses} (w : ℚ) (hw : 0 < w) (mask : BitVec 8)
    (aabb : Option (Point 3 × Point 3)) (hbox : ∀ lo hi, aabb = some (lo, hi) → ∀ k, lo k ≤ hi k) (draws : Draws) (hd : draws.Ok)
    (hrange : ∀ p, SampleRegion w H K aabb p → Int32Index (pointToNearestIndex p (1 / w))) : ∀ (n i : Nat) (c : ClassifiedMap),
    Ok H cl ex K c → c.minCellWidth = w →
    ∃ r c', attempts mask aabb draws n i c = some (r, c') ∧ Ok H cl ex K c' ∧
      (∀ p, r = some p → SampleRegion w H K aabb p ∧ ∃ k, K (pointToNearestIndex p (1 / w)) k ∧ InMask mask k) ∧
      (r = none → ∀ i', i ≤ i' → i' < i + n → ∀ p, candidate c aabb draws i' = some p →
        ∀ k, K (pointToNearestIndex p (1 / w)) k → ¬ InMask mask k) := by
  intro n
  induction n with
  | zero => intro i c h hcw; exact ⟨none, c, rfl, h, by simp, fun _ i' h1 h2 => by omega⟩
  | succ n ih =>
    intro i c h hcw
    rw [attempts]
    cases hc : candidate c aabb draws i with
    | none =>
      dsimp only
      obtain ⟨r, c', e, h1, h2, h3⟩ := ih (i + 1) c h hcw
      refine ⟨r, c', e, h1, h2, fun hr i' hi1 hi2 p hp => ?_⟩
      by_cases hi : i' = i
      · rw [hi, hc] at hp; cases hp
      · exact h3 hr i' (by omega) (by omega) p hp
    | some p =>
      dsimp only
      have hreg : SampleRegion w H K aabb p := by
        rw [← hcw]; exact candidate_region h (by rw [hcw]; exact hw) aabb hbox draws hd i hc
      rw [hcw]
      obtain ⟨r, c', e, h1, hr⟩ := h.isFully hH hH' (cell_query _ (hrange p hreg)) mask
      rw [cell_fully] at hr
      rw [e]
      obtain ⟨hsb, hsw⟩ := isFully_same e
      cases r with
      | true => exact ⟨some p, c', rfl, h1, fun p' hp' => by cases hp'; exact ⟨hreg, hr.1 rfl⟩, by simp⟩
      | false =>
        dsimp only
        obtain ⟨r, c'', e, h1, h2, h3⟩ := ih (i + 1) c' h1 (by rw [hsw, hcw])
        refine ⟨r, c'', e, h1, h2, fun hrn i' hi1 hi2 p' hp' k hk hm => ?_⟩
        by_cases hi : i' = i
        · rw [hi, hc] at hp'
          cases hp'
          exact absurd (hr.2 ⟨k, hk, hm⟩) (by simp)
        · exact h3 hrn i' (by omega) (by omega) p' (by rw [candidate_congr hsb hsw]; exact hp') k hk hm

end PointSampler

theorem ClassifiedOp.run_width {c c' : ClassifiedMap} (o : ClassifiedOp) (h : o.run c = some c') : c'.minCellWidth = c.minCellWidth := by
  cases o with
  | update m => cases h; rfl
  | updateEsdf m esdf radius =>
    simp only [ClassifiedOp.run, ClassifiedMap.updateEsdf] at h
    split at h
    · cases h; rfl
    · cases h
  | has n mask =>
    simp only [ClassifiedOp.run, ClassifiedMap.has, Option.map_map] at h
    obtain ⟨x, -, e⟩ := Option.map_eq_some_iff.1 h
    rw [← e]; rfl
  | isFully n mask =>
    simp only [ClassifiedOp.run, ClassifiedMap.isFully, Option.map_map] at h
    obtain ⟨x, -, e⟩ := Option.map_eq_some_iff.1 h
    rw [← e]; rfl
  | getValue n =>
    simp only [ClassifiedOp.run, ClassifiedMap.getValue, ClassifiedMap.getValueOrAncestor, ClassifiedMap.getNodeOrAncestor, Option.map_map] at h
    obtain ⟨x, -, e⟩ := Option.map_eq_some_iff.1 h
    rw [← e]; rfl
  | getNodeOrAncestor n =>
    simp only [ClassifiedOp.run, ClassifiedMap.getNodeOrAncestor, Option.map_map] at h
    obtain ⟨x, -, e⟩ := Option.map_eq_some_iff.1 h
    rw [← e]; rfl
  | hasBlock b =>
    simp only [ClassifiedOp.run, ClassifiedMap.hasBlock, Option.map_map] at h
    obtain ⟨x, -, e⟩ := Option.map_eq_some_iff.1 h
    rw [← e]; rfl

theorem ClassifiedMap.runAll_width (ops : List ClassifiedOp) : ∀ {c c' : ClassifiedMap}, c.runAll ops = some c' → c'.minCellWidth = c.minCellWidth := by
  induction ops with
  | nil => intro c c' h; cases h; rfl
  | cons o ops ih =>
    intro c c' h
    unfold ClassifiedMap.runAll at h
    rw [List.foldlM_cons] at h
    cases ho : o.run c with
    | none => rw [ho] at h; cases h
    | some c1 =>
      rw [ho] at h
      rw [ih (c := c1) h, o.run_width ho]

/-! ## C62 -/

/-- C62: whatever the random number generator delivers, and after any history of the classified map: a returned point lies in the
requested box (or, without a box, in a block of the map) and in a cell whose class was asked for. If no point is returned, then the
map is empty or no attempt drew a point in a cell with such a class. -/
theorem C62_sampled_points (w : ℚ) (hw : 0 < w) (H : Nat) (hH : 0 < H) (hH' : H < 20) (cl : OccClassifier) (ops : List ClassifiedOp)
    (hops : ∀ o ∈ ops, o.Valid H ∧ o.IsRegional) :
    ∃ c, (ClassifiedMap.create w H cl).runAll ops = some c ∧
      let K := ops.foldl (ClassifiedOp.spec cl.threshold) fun _ _ => False
      ∀ (mask : BitVec 8) (aabb : Option (Point 3 × Point 3)) (maxAttempts : Nat) (draws : Draws), draws.Ok →
        (∀ lo hi, aabb = some (lo, hi) → ∀ k, lo k ≤ hi k) →
        (∀ p, SampleRegion w H K aabb p → Int32Index (pointToNearestIndex p (1 / w))) →
        ∃ r c', PointSampler.getRandomPoint c mask aabb maxAttempts draws = some (r, c') ∧
          (∀ p, r = some p → SampleRegion w H K aabb p ∧ ∃ j k, InClosedCell j w p ∧ K j k ∧ InMask mask k) ∧
          (r = none → (∀ j k, ¬ K j k) ∨ ∀ i < maxAttempts, ∀ p, PointSampler.candidate c aabb draws i = some p →
            ∀ k, K (pointToNearestIndex p (1 / w)) k → ¬ InMask mask k) := by
  obtain ⟨c, e, h⟩ := (create_ok w H cl false).regional hH hH' ops hops
  refine ⟨c, e, fun mask aabb n draws hd hbox hrange => ?_⟩
  have hcw : c.minCellWidth = w := runAll_width ops e
  unfold PointSampler.getRandomPoint
  cases hemp : c.blocks.blocks.isEmpty with
  | true =>
    rw [if_pos rfl]
    refine ⟨none, c, rfl, by simp, fun _ => Or.inl fun j k hk => ?_⟩
    obtain ⟨C, -, -, hK⟩ := h.good
    obtain ⟨⟨x, hx⟩, -⟩ := (hK _ _).1 hk
    rw [List.isEmpty_iff] at hemp
    rw [hemp] at hx
    cases hx
  | false =>
    rw [if_neg (by simp)]
    obtain ⟨r, c', e, -, h2, h3⟩ := PointSampler.attempts_spec hH hH' w hw mask aabb hbox draws hd hrange n 0 c h hcw
    refine ⟨r, c', e, fun p hp => ?_, fun hr => Or.inr fun i hi p hp => h3 hr i (Nat.zero_le _) (by omega) p hp⟩
    obtain ⟨h4, k, h5, h6⟩ := h2 p hp
    exact ⟨h4, _, k, C07_nearest_contains p w hw, h5, h6⟩

/-- A box, draws and a map that meet the hypotheses; the sampler returns a point in the occupied cell. -/
example : (Draws.mk (fun _ _ => 1 / 2) (fun _ => 3)).Ok ∧
    (∀ o ∈ [ClassifiedOp.update classifyBefore], o.Valid 2 ∧ o.IsRegional) ∧
    ((ClassifiedMap.create 1 2 ⟨0⟩).runAll [.update classifyBefore]).bind
      (fun c => (PointSampler.getRandomPoint c OccId.occupied.toMask (some ((fun _ => 0), fun _ => 1)) 10 ⟨fun _ _ => 1 / 2, fun _ => 3⟩).map
        fun r => r.1.map fun p => decide (∀ k, p k = 1 / 2)) = some (some true) := by
  refine ⟨fun _ _ => by constructor <;> norm_num, ?_, by decide +kernel⟩
  intro o ho
  simp only [List.mem_cons, List.not_mem_nil, or_false] at ho
  rw [ho]; exact ⟨classifyBefore_ok, trivial⟩

end Wavemap
