import Verif.Props.RayTracing
import Verif.Model.Occupancy
/-!
# C81: a change of the scene shows in the map after a bounded number of scans
-/
namespace Wavemap

/-! ## Specification -/

/-- The point at `t` between `p` (`t = 0`) and `e` (`t = 1`). -/
def along (p e : Point 3) (t : ℚ) : Point 3 := fun i => p i + t * (e i - p i)

/-- The point is inside the cell, not on its boundary. -/
def InsideCell (w : ℚ) (j : Index 3) (x : Point 3) : Prop := ∀ i, (j i : ℚ) * w < x i ∧ x i < ((j i : ℚ) + 1) * w

/-- The point is in the cell or on its boundary. -/
def OnCell (w : ℚ) (j : Index 3) (x : Point 3) : Prop := ∀ i, (j i : ℚ) * w ≤ x i ∧ x i ≤ ((j i : ℚ) + 1) * w

/-- The segment from `p` to `e` goes through the inside of the cell. -/
def Crosses (p e : Point 3) (w : ℚ) (j : Index 3) : Prop := ∃ t : ℚ, 0 ≤ t ∧ t ≤ 1 ∧ InsideCell w j (along p e t)

/-- The segment from `p` to `e` touches the cell. -/
def Touches (p e : Point 3) (w : ℚ) (j : Index 3) : Prop := ∃ t : ℚ, 0 ≤ t ∧ t ≤ 1 ∧ OnCell w j (along p e t)

/-- A scan: the position of the sensor and the cloud, both in the world frame. -/
structure RayScan where
  start : Point 3
  cloud : List (Option (Point 3))

/-- The end of the beam of the point `q`: the point, or where the beam reaches the maximum range. -/
def RayScan.stop (s : RayScan) (config : RayTracingConfig) (norm : Point 3 → Point 3 → ℚ) (q : Point 3) : Point 3 :=
  rayEndPoint s.start q (norm s.start q) config.maxRange

/-- The scan sees through the cell: a beam goes through its inside, and no point is in it. -/
structure SeesThrough (config : RayTracingConfig) (w : ℚ) (norm : Point 3 → Point 3 → ℚ) (j : Index 3) (s : RayScan) : Prop where
  beam : ∃ q ∈ usedPoints s.start s.cloud, Crosses s.start (s.stop config norm q) w j
  empty : ∀ q ∈ usedPoints s.start s.cloud, pointToNearestIndex q (1 / w) ≠ j

/-- The scan sees a surface in the cell: a point within the maximum range is inside it, and the beams of points in other cells do not touch it. -/
structure SeesSurface (config : RayTracingConfig) (w : ℚ) (norm : Point 3 → Point 3 → ℚ) (j : Index 3) (s : RayScan) : Prop where
  point : ∃ q ∈ usedPoints s.start s.cloud, InsideCell w j q ∧ norm s.start q ≤ config.maxRange
  others : ∀ q ∈ usedPoints s.start s.cloud, pointToNearestIndex q (1 / w) = j ∨ ¬ Touches s.start (s.stop config norm q) w j

/-- The map `m'` is what the scans, one after the other, can make of `m`. Maps of hashed blocks may be thresholded and pruned in between. -/
inductive Scanned (config : RayTracingConfig) (w : ℚ) (norm : Point 3 → Point 3 → ℚ) : AnyMap → List RayScan → AnyMap → Prop
  | nil {m} : Scanned config w norm m [] m
  | scan {m m1 m2 s ss} : RayTraced config w norm true s.start s.cloud m (.done m1) → Scanned config w norm m1 ss m2 → Scanned config w norm m (s :: ss) m2
  | threshold {b m2 ss} : Scanned config w norm (.hashedBlocks b.threshold) ss m2 → Scanned config w norm (.hashedBlocks b) ss m2
  | prune {b m2 ss} : Scanned config w norm (.hashedBlocks b.prune) ss m2 → Scanned config w norm (.hashedBlocks b) ss m2

/-- The bounds that the map keeps values within whenever it adds to them: only hashed blocks do. -/
def AnyMap.limits : AnyMap → Option (ℚ × ℚ)
  | .hashedBlocks b => some (b.config.minLogOdds, b.config.maxLogOdds)
  | _ => none

/-- The map has room for all cells that the beams touch. -/
def AnyMap.Contains (m : AnyMap) (config : RayTracingConfig) (w : ℚ) (norm : Point 3 → Point 3 → ℚ) (s : RayScan) : Prop :=
  ∀ q ∈ usedPoints s.start s.cloud, ∀ j, Touches s.start (s.stop config norm q) w j → m.Covers j

/-! ## The beams have no gaps -/

theorem between_cells {p e : Point 3} {w : ℚ} (hw : 0 < w) {stop a b : Index 3} (hs : StepTowards stop a b) {s t u : ℚ} (h1 : s ≤ t) (h2 : t ≤ u)
    (ha : OnCell w a (along p e s)) (hb : OnCell w b (along p e u)) : OnCell w a (along p e t) ∨ OnCell w b (along p e t) := by
  have mono : ∀ i, (along p e s i ≤ along p e t i ∧ along p e t i ≤ along p e u i) ∨ (along p e u i ≤ along p e t i ∧ along p e t i ≤ along p e s i) := by
    intro i
    unfold along
    rcases le_total 0 (e i - p i) with h | h
    · left; constructor <;> nlinarith
    · right; constructor <;> nlinarith
  obtain ⟨k, hk, hd, _⟩ := hs
  have other : ∀ i, i ≠ k → (a i : ℚ) * w ≤ along p e t i ∧ along p e t i ≤ ((a i : ℚ) + 1) * w := by
    intro i hi
    have h3 := ha i
    have h4 := hb i
    rw [hk i hi] at h4
    rcases mono i with h | h <;> constructor <;> linarith [h.1, h.2, h3.1, h3.2, h4.1, h4.2]
  have h3 := ha k
  have h4 := hb k
  have hor : ((a k : ℚ) * w ≤ along p e t k ∧ along p e t k ≤ ((a k : ℚ) + 1) * w) ∨
      ((b k : ℚ) * w ≤ along p e t k ∧ along p e t k ≤ ((b k : ℚ) + 1) * w) := by
    have hd' : (b k : ℚ) = a k + 1 ∨ (b k : ℚ) = a k - 1 := by
      rcases (abs_eq (by norm_num)).1 hd with h | h
      · left; have : b k = a k + 1 := by omega
        rw [this]; push_cast; ring
      · right; have : b k = a k - 1 := by omega
        rw [this]; push_cast; ring
    rcases hd' with e' | e' <;> rw [e'] at h4 ⊢
    · rcases le_total (along p e t k) (((a k : ℚ) + 1) * w) with h | h
      · left; refine ⟨?_, h⟩
        rcases mono k with h' | h' <;> nlinarith [h'.1, h'.2, h3.1, h4.1]
      · right; refine ⟨h, ?_⟩
        rcases mono k with h' | h' <;> nlinarith [h'.1, h'.2, h3.2, h4.2]
    · rcases le_total ((a k : ℚ) * w) (along p e t k) with h | h
      · left; refine ⟨h, ?_⟩
        rcases mono k with h' | h' <;> nlinarith [h'.1, h'.2, h3.2, h4.2]
      · right; refine ⟨?_, by linarith⟩
        rcases mono k with h' | h' <;> nlinarith [h'.1, h'.2, h3.1, h4.1]
  rcases hor with h | h
  · left; intro i; by_cases hi : i = k
    · rw [hi]; exact h
    · exact other i hi
  · right; intro i; by_cases hi : i = k
    · rw [hi]; exact h
    · rw [hk i hi]; exact other i hi

/-- Every point of the beam is in one of its cells, or on the boundary of one. -/
theorem BeamCells.covers {p e : Point 3} {w : ℚ} (hw : 0 < w) {cells : List (Index 3)} (h : BeamCells p e w cells) (t : ℚ) (h0 : 0 ≤ t) (h1 : t ≤ 1) :
    ∃ j ∈ cells, OnCell w j (along p e t) := by
  obtain ⟨stop, hchain⟩ := h.steps
  have hlast : ∃ last, cells.getLast? = some last ∧ OnCell w last (along p e 1) := by
    obtain ⟨last, e1, e2⟩ := h.last
    exact ⟨last, e1, fun i => by unfold along; simpa using e2 i⟩
  have hfirst : ∃ first, cells.head? = some first ∧ ∃ s ≤ t, OnCell w first (along p e s) :=
    ⟨_, h.first, 0, h0, fun i => by unfold along; simpa using nearest_bounds p w hw i⟩
  have htouch : ∀ j ∈ cells, ∃ s, OnCell w j (along p e s) := fun j hj => by
    obtain ⟨s, _, _, hs⟩ := h.touch j hj
    exact ⟨s, hs⟩
  clear h h0
  induction cells with
  | nil => obtain ⟨_, e1, _⟩ := hlast; cases e1
  | cons a rest ih =>
    obtain ⟨first, e1, s, hs, hin⟩ := hfirst
    cases e1
    cases rest with
    | nil =>
      obtain ⟨last, e1, e2⟩ := hlast
      cases e1
      refine ⟨a, List.mem_cons_self, fun i => ?_⟩
      have a1 := hin i
      have a2 : (a i : ℚ) * w ≤ along p e 1 i ∧ along p e 1 i ≤ ((a i : ℚ) + 1) * w := e2 i
      clear ih e2 hin htouch
      unfold along at *
      rcases le_total 0 (e i - p i) with h | h <;> constructor <;> nlinarith
    | cons b rest =>
      have hstep : StepTowards stop a b := by
        rw [List.isChain_cons_cons] at hchain; exact hchain.1
      have hchain' : (b :: rest).IsChain (StepTowards stop) := by
        rw [List.isChain_cons_cons] at hchain; exact hchain.2
      obtain ⟨u, hu⟩ := htouch b (List.mem_cons_of_mem _ List.mem_cons_self)
      by_cases hut : t ≤ u
      · rcases between_cells hw hstep hs hut hin hu with h | h
        · exact ⟨a, List.mem_cons_self, h⟩
        · exact ⟨b, List.mem_cons_of_mem _ List.mem_cons_self, h⟩
      · obtain ⟨j, hj, hj'⟩ := ih hchain' (by obtain ⟨last, e1, e2⟩ := hlast; exact ⟨last, by rw [← e1]; rfl, e2⟩)
          ⟨b, rfl, u, le_of_not_ge hut, hu⟩ (fun j hj => htouch j (List.mem_cons_of_mem _ hj))
        exact ⟨j, List.mem_cons_of_mem _ hj, hj'⟩

/-- A point inside a cell is in no other. -/
theorem InsideCell.unique {w : ℚ} (hw : 0 < w) {i j : Index 3} {x : Point 3} (h : InsideCell w j x) (h' : OnCell w i x) : i = j := by
  funext k
  have h1 := h k
  have h2 := h' k
  have a1 : (j k : ℚ) < i k + 1 := lt_of_mul_lt_mul_right (h1.1.trans_le h2.2) hw.le
  have a2 : (i k : ℚ) < j k + 1 := lt_of_mul_lt_mul_right (h2.1.trans_lt h1.2) hw.le
  have b1 : j k < i k + 1 := by exact_mod_cast a1
  have b2 : i k < j k + 1 := by exact_mod_cast a2
  omega

/-- **C30** No gaps: a ray between two points visits every cell through whose inside it goes, and every point of the ray is in a visited cell or on the boundary of
one. -/
theorem C30_no_gaps (p q : Point 3) (w : ℚ) (hw : 0 < w) (cells : List (Index 3)) (h : RayCells (Ray.ofPoints p q w) cells) :
    (∀ t : ℚ, 0 ≤ t → t ≤ 1 → ∃ j ∈ cells, OnCell w j (along p q t)) ∧ (∀ j, Crosses p q w j → j ∈ cells) ∧ ∀ j ∈ cells, Touches p q w j := by
  obtain ⟨a1, a2, a3, a4, a5⟩ := C30_point_ray p q w hw cells h
  have hb : BeamCells p q w cells := ⟨a1, a2, a3, a4, a5⟩
  refine ⟨fun t h0 h1 => hb.covers hw t h0 h1, fun j ⟨t, h0, h1, hj⟩ => ?_, a5⟩
  obtain ⟨i, hi, hi'⟩ := hb.covers hw t h0 h1
  rw [← hj.unique hw hi']
  exact hi

/-! ## One scan -/

theorem AnyMap.combine_limits (m : AnyMap) (v u : ℚ) : m.combine v u = match m.limits with
    | some (lo, hi) => max lo (min (v + u) hi)
    | none => v + u := by
  cases m <;> rfl

theorem AnyMap.limits_writeCells (ws : List CellWrite) (m : AnyMap) : (m.writeCells ws).limits = m.limits := by
  unfold AnyMap.writeCells
  induction ws generalizing m with
  | nil => rfl
  | cons x ws ih =>
    rw [List.foldl_cons, ih]
    cases m <;> rfl

theorem AnyMap.Mapped.limits_le {m : AnyMap} (h : m.Mapped) {lo hi : ℚ} (e : m.limits = some (lo, hi)) : lo ≤ hi := by
  cases m with
  | hashedBlocks b =>
    obtain ⟨config, dv, ops, hc, hr⟩ := h
    have hcfg : b.config = config := by
      rw [← hr]
      have : ∀ (ops : List HashedBlocksOp) (m : HashedBlocks), (ops.foldl HashedBlocksOp.run m).config = m.config := by
        intro ops
        induction ops with
        | nil => intro m; rfl
        | cons o ops ih => intro m; rw [List.foldl_cons, ih, (HashedBlocks.run_config m o).1]
      exact this _ _
    cases e
    rw [hcfg]
    simp only [MapBaseConfig.isValid, Bool.and_eq_true, decide_eq_true_eq] at hc
    exact hc.2.le
  | _ => cases e

theorem mem_used {config : RayTracingConfig} {w : ℚ} (hw : 0 < w) {norm : Point 3 → Point 3 → ℚ} {s : RayScan} {rays : List TracedRay}
    (h : RaysOf config w norm s.start s.cloud rays) : (∀ r ∈ rays, r.point ∈ usedPoints s.start s.cloud ∧ BeamCells s.start (s.stop config norm r.point) w r.cells) ∧
    ∀ q ∈ usedPoints s.start s.cloud, ∃ r ∈ rays, r.point = q := by
  obtain ⟨h1, h2⟩ := C67_rays config w hw norm s.start s.cloud rays h
  rw [← h1]
  exact ⟨fun r hr => ⟨List.mem_map_of_mem hr, h2 r hr⟩, fun q hq => List.mem_map.1 hq⟩

/-- What one scan does to the value of a cell. -/
theorem RayTraced.cell {config : RayTracingConfig} {w : ℚ} (hw : 0 < w) {norm : Point 3 → Point 3 → ℚ} {s : RayScan} {m m1 : AnyMap} (hm : m.Mapped)
    (hcov : m.Contains config w norm s) (h : RayTraced config w norm true s.start s.cloud m (.done m1)) :
    m1.Mapped ∧ m1.Covers = m.Covers ∧ m1.limits = m.limits ∧ ∃ rays, RaysOf config w norm s.start s.cloud rays ∧ ∀ j, m.Covers j → m1.cell j =
      rays.foldl (fun v r => if j ∈ r.cells then m.combine v (if j = pointToNearestIndex r.point (1 / w) then 17 / 20 else -2 / 5) else v) (m.cell j) := by
  have hcov' : ∀ rays, RaysOf config w norm s.start s.cloud rays → ∀ r ∈ rays, ∀ i ∈ r.cells, m.Covers i := by
    intro rays hr r hr' i hi
    obtain ⟨h1, h2⟩ := (mem_used hw hr).1 r hr'
    exact hcov r.point h1 i (h2.touch i hi)
  obtain ⟨a1, _, a3⟩ := C67_cells config w hw norm true s.start s.cloud m m1 hm hcov' h
  refine ⟨a1, ?_, ?_, a3 rfl⟩
  · cases h with
    | invalid h => cases h
    | @integrated rays _ _ hr =>
      exact (hm.writeCells _ (by
        intro x hx
        obtain ⟨r, h1, h2⟩ := List.mem_flatMap.1 hx
        obtain ⟨i, h3, h4⟩ := List.mem_map.1 h2
        subst h4
        exact hcov' rays hr r h1 i h3)).2.1
  · cases h with
    | invalid h => cases h
    | integrated _ _ _ => exact AnyMap.limits_writeCells _ _

/-- At most `b`, or at the lower limit. -/
def AtMost (l : Option (ℚ × ℚ)) (b v : ℚ) : Prop := v ≤ b ∨ ∃ lo hi, l = some (lo, hi) ∧ v = lo

/-- At least `b`, or at the upper limit. -/
def AtLeast (l : Option (ℚ × ℚ)) (b v : ℚ) : Prop := b ≤ v ∨ ∃ lo hi, l = some (lo, hi) ∧ v = hi

theorem AtMost.sub {m : AnyMap} (hm : m.Mapped) {b v u : ℚ} (hu : u ≤ 0) (h : AtMost m.limits b v) : AtMost m.limits (b + u) (m.combine v u) := by
  rw [AnyMap.combine_limits]
  unfold AtMost at *
  have hl := fun lo hi e => hm.limits_le (lo := lo) (hi := hi) e
  generalize m.limits = l at *
  cases l with
  | none =>
    left
    rcases h with h | ⟨_, _, h, _⟩
    · show v + u ≤ b + u; linarith
    · cases h
  | some l =>
    obtain ⟨lo, hi⟩ := l
    have hle := hl lo hi rfl
    show max lo (min (v + u) hi) ≤ b + u ∨ _
    rcases h with h | ⟨_, _, h, hv⟩
    · rcases le_total (min (v + u) hi) lo with h' | h'
      · exact Or.inr ⟨lo, hi, rfl, max_eq_left h'⟩
      · left; rw [max_eq_right h']; exact (min_le_left _ _).trans (by linarith)
    · cases h
      refine Or.inr ⟨lo, hi, rfl, max_eq_left ((min_le_left _ _).trans (by linarith))⟩

theorem AtLeast.add {m : AnyMap} (hm : m.Mapped) {b v u : ℚ} (hu : 0 ≤ u) (h : AtLeast m.limits b v) : AtLeast m.limits (b + u) (m.combine v u) := by
  rw [AnyMap.combine_limits]
  unfold AtLeast at *
  have hl := fun lo hi e => hm.limits_le (lo := lo) (hi := hi) e
  generalize m.limits = l at *
  cases l with
  | none =>
    left
    rcases h with h | ⟨_, _, h, _⟩
    · show b + u ≤ v + u; linarith
    · cases h
  | some l =>
    obtain ⟨lo, hi⟩ := l
    have hle := hl lo hi rfl
    show b + u ≤ max lo (min (v + u) hi) ∨ _
    rcases h with h | ⟨_, _, h, hv⟩
    · rcases le_total hi (v + u) with h' | h'
      · exact Or.inr ⟨lo, hi, rfl, by show max lo (min (v + u) hi) = hi; rw [min_eq_right h', max_eq_right hle]⟩
      · left; rw [min_eq_left h']; exact le_max_of_le_right (by linarith)
    · cases h
      exact Or.inr ⟨lo, hi, rfl, by show max lo (min (v + u) hi) = hi; rw [min_eq_right (by linarith), max_eq_right hle]⟩

theorem AtMost.mono {l : Option (ℚ × ℚ)} {b b' v : ℚ} (h : AtMost l b v) (hb : b ≤ b') : AtMost l b' v := h.imp_left fun h => h.trans hb
theorem AtLeast.mono {l : Option (ℚ × ℚ)} {b b' v : ℚ} (h : AtLeast l b v) (hb : b' ≤ b) : AtLeast l b' v := h.imp_left fun h => hb.trans h

theorem atMost_rays {m : AnyMap} (hm : m.Mapped) {w : ℚ} {j : Index 3} (rays : List TracedRay) (hall : ∀ r ∈ rays, j ≠ pointToNearestIndex r.point (1 / w))
    (b v : ℚ) (h : AtMost m.limits b v) :
    AtMost m.limits b (rays.foldl (fun v r => if j ∈ r.cells then m.combine v (if j = pointToNearestIndex r.point (1 / w) then 17 / 20 else -2 / 5) else v) v) ∧
    ((∃ r ∈ rays, j ∈ r.cells) → AtMost m.limits (b - 2 / 5)
      (rays.foldl (fun v r => if j ∈ r.cells then m.combine v (if j = pointToNearestIndex r.point (1 / w) then 17 / 20 else -2 / 5) else v) v)) := by
  induction rays generalizing b v with
  | nil => exact ⟨h, fun ⟨_, h, _⟩ => nomatch h⟩
  | cons r rays ih =>
    rw [List.foldl_cons]
    have ih' := ih fun r' hr' => hall r' (List.mem_cons_of_mem _ hr')
    by_cases hj : j ∈ r.cells
    · rw [if_pos hj, if_neg (hall r List.mem_cons_self)]
      have h2 := (ih' _ _ (h.sub hm (u := -2 / 5) (by norm_num))).1
      exact ⟨h2.mono (by linarith), fun _ => h2.mono (by linarith)⟩
    · rw [if_neg hj]
      refine ⟨(ih' _ _ h).1, fun ⟨r', hr', hj'⟩ => (ih' _ _ h).2 ?_⟩
      rcases List.mem_cons.1 hr' with rfl | hr'
      · exact absurd hj' hj
      · exact ⟨r', hr', hj'⟩

theorem atLeast_rays {m : AnyMap} (hm : m.Mapped) {w : ℚ} {j : Index 3} (rays : List TracedRay)
    (hall : ∀ r ∈ rays, j ∈ r.cells → j = pointToNearestIndex r.point (1 / w)) (b v : ℚ) (h : AtLeast m.limits b v) :
    AtLeast m.limits b (rays.foldl (fun v r => if j ∈ r.cells then m.combine v (if j = pointToNearestIndex r.point (1 / w) then 17 / 20 else -2 / 5) else v) v) ∧
    ((∃ r ∈ rays, j ∈ r.cells) → AtLeast m.limits (b + 17 / 20)
      (rays.foldl (fun v r => if j ∈ r.cells then m.combine v (if j = pointToNearestIndex r.point (1 / w) then 17 / 20 else -2 / 5) else v) v)) := by
  induction rays generalizing b v with
  | nil => exact ⟨h, fun ⟨_, h, _⟩ => nomatch h⟩
  | cons r rays ih =>
    rw [List.foldl_cons]
    have ih' := ih fun r' hr' => hall r' (List.mem_cons_of_mem _ hr')
    by_cases hj : j ∈ r.cells
    · rw [if_pos hj, if_pos (hall r List.mem_cons_self hj)]
      have h2 := (ih' _ _ (h.add hm (u := 17 / 20) (by norm_num))).1
      exact ⟨h2.mono (by linarith), fun _ => h2⟩
    · rw [if_neg hj]
      refine ⟨(ih' _ _ h).1, fun ⟨r', hr', hj'⟩ => (ih' _ _ h).2 ?_⟩
      rcases List.mem_cons.1 hr' with rfl | hr'
      · exact absurd hj' hj
      · exact ⟨r', hr', hj'⟩

theorem BeamCells.crosses {p e : Point 3} {w : ℚ} (hw : 0 < w) {cells : List (Index 3)} (h : BeamCells p e w cells) {j : Index 3} (hj : Crosses p e w j) :
    j ∈ cells := by
  obtain ⟨t, h0, h1, ht⟩ := hj
  obtain ⟨i, hi, hi'⟩ := h.covers hw t h0 h1
  rw [← ht.unique hw hi']
  exact hi

/-! ## Many scans -/

theorem hashedBlocks_tidy {b : HashedBlocks} (h : (AnyMap.hashedBlocks b).Mapped) (o : HashedBlocksOp) (ho : o = .threshold ∨ o = .prune) :
    (AnyMap.hashedBlocks (o.run b)).Mapped ∧ (AnyMap.hashedBlocks (o.run b)).limits = (AnyMap.hashedBlocks b).limits ∧
      ∀ j, (AnyMap.hashedBlocks (o.run b)).cell j = (AnyMap.hashedBlocks b).cell j := by
  have hle := h.limits_le (lo := b.config.minLogOdds) (hi := b.config.maxLogOdds) rfl
  obtain ⟨config, dv, ops, hc, hr⟩ := h
  have hw : b.Wf := by rw [← hr]; exact C22_hashed_blocks_reachable config dv ops
  refine ⟨⟨config, dv, ops ++ [o], hc, by rw [List.foldl_append, hr]; rfl⟩, ?_, fun j => ?_⟩
  · show some _ = some _
    rw [(HashedBlocks.run_config b o).1]
  · refine (HashedBlocks.run_spec hw hle o j).trans ?_
    rcases ho with rfl | rfl <;> rfl

theorem Scanned.induct {config : RayTracingConfig} {w : ℚ} (hw : 0 < w) {norm : Point 3 → Point 3 → ℚ} (j : Index 3) (P : RayScan → Prop)
    (Q : Option (ℚ × ℚ) → Nat → ℚ → Prop)
    (hstep : ∀ (m : AnyMap) (s : RayScan) rays n, m.Mapped → P s → RaysOf config w norm s.start s.cloud rays → Q m.limits n (m.cell j) → Q m.limits (n + 1)
      (rays.foldl (fun v r => if j ∈ r.cells then m.combine v (if j = pointToNearestIndex r.point (1 / w) then 17 / 20 else -2 / 5) else v) (m.cell j)))
    {m m' : AnyMap} {ss : List RayScan} (h : Scanned config w norm m ss m') (hm : m.Mapped) (hj : m.Covers j)
    (hcov : ∀ s ∈ ss, m.Contains config w norm s) (hP : ∀ s ∈ ss, P s) (n : Nat) (h0 : Q m.limits n (m.cell j)) :
    m'.limits = m.limits ∧ Q m.limits (n + ss.length) (m'.cell j) := by
  induction h generalizing n with
  | nil => exact ⟨rfl, h0⟩
  | @scan m m1 m2 s ss h1 _ ih =>
    obtain ⟨a1, a2, a3, rays, hr, hv⟩ := h1.cell hw hm (hcov s List.mem_cons_self)
    have hq := hstep m s rays n hm (hP s List.mem_cons_self) hr h0
    rw [← hv j hj, ← a3] at hq
    obtain ⟨b1, b2⟩ := ih a1 (by rw [a2]; exact hj) (fun s' hs' q hq i hi => by rw [a2]; exact hcov s' (List.mem_cons_of_mem _ hs') q hq i hi)
      (fun s' hs' => hP s' (List.mem_cons_of_mem _ hs')) (n + 1) hq
    refine ⟨b1.trans a3, ?_⟩
    rw [a3, show n + 1 + ss.length = n + (s :: ss).length by rw [List.length_cons]; omega] at b2
    exact b2
  | @threshold b m2 ss _ ih =>
    obtain ⟨a1, a2, a3⟩ := hashedBlocks_tidy hm .threshold (Or.inl rfl)
    obtain ⟨b1, b2⟩ := ih a1 trivial (fun _ _ _ _ _ _ => trivial) hP n (by
      show Q (AnyMap.hashedBlocks (HashedBlocksOp.threshold.run b)).limits n ((AnyMap.hashedBlocks (HashedBlocksOp.threshold.run b)).cell j)
      rw [a2, a3]; exact h0)
    exact ⟨b1.trans a2, (show Q _ _ _ ↔ _ from by rw [← a2]; rfl).1 b2⟩
  | @prune b m2 ss _ ih =>
    obtain ⟨a1, a2, a3⟩ := hashedBlocks_tidy hm .prune (Or.inr rfl)
    obtain ⟨b1, b2⟩ := ih a1 trivial (fun _ _ _ _ _ _ => trivial) hP n (by
      show Q (AnyMap.hashedBlocks (HashedBlocksOp.prune.run b)).limits n ((AnyMap.hashedBlocks (HashedBlocksOp.prune.run b)).cell j)
      rw [a2, a3]; exact h0)
    exact ⟨b1.trans a2, (show Q _ _ _ ↔ _ from by rw [← a2]; rfl).1 b2⟩

/-- Each scan that sees through a cell lowers its value by at least 0.4, or the value is at the lower limit. -/
theorem C81_clears (config : RayTracingConfig) (w : ℚ) (hw : 0 < w) (norm : Point 3 → Point 3 → ℚ) (m m' : AnyMap) (hm : m.Mapped) (scans : List RayScan)
    (j : Index 3) (hj : m.Covers j) (hcov : ∀ s ∈ scans, m.Contains config w norm s) (hsee : ∀ s ∈ scans, SeesThrough config w norm j s)
    (h : Scanned config w norm m scans m') :
    m'.cell j ≤ m.cell j - 2 / 5 * scans.length ∨ ∃ lo hi, m.limits = some (lo, hi) ∧ m'.cell j = lo := by
  have := (Scanned.induct hw j (SeesThrough config w norm j) (fun l n v => AtMost l (m.cell j - 2 / 5 * n) v) (by
    intro m1 s rays n hm1 hs hr h0
    obtain ⟨h1, h2⟩ := mem_used hw hr
    have h3 := (atMost_rays hm1 rays (fun r hr' e => hs.empty _ (h1 r hr').1 e.symm) _ _ h0).2 (by
      obtain ⟨q, hq, hc⟩ := hs.beam
      obtain ⟨r, hr', rfl⟩ := h2 q hq
      exact ⟨r, hr', (h1 r hr').2.crosses hw hc⟩)
    exact h3.mono (by push_cast; linarith)) h hm hj hcov hsee 0 (Or.inl (by simp))).2
  rw [Nat.zero_add] at this
  exact this

/-- Each scan that sees a surface in a cell raises its value by at least 0.85, or the value is at the upper limit. -/
theorem C81_appears (config : RayTracingConfig) (w : ℚ) (hw : 0 < w) (norm : Point 3 → Point 3 → ℚ) (m m' : AnyMap) (hm : m.Mapped) (scans : List RayScan)
    (j : Index 3) (hj : m.Covers j) (hcov : ∀ s ∈ scans, m.Contains config w norm s) (hsee : ∀ s ∈ scans, SeesSurface config w norm j s)
    (h : Scanned config w norm m scans m') :
    m.cell j + 17 / 20 * scans.length ≤ m'.cell j ∨ ∃ lo hi, m.limits = some (lo, hi) ∧ m'.cell j = hi := by
  have := (Scanned.induct hw j (SeesSurface config w norm j) (fun l n v => AtLeast l (m.cell j + 17 / 20 * n) v) (by
    intro m1 s rays n hm1 hs hr h0
    obtain ⟨h1, h2⟩ := mem_used hw hr
    have h3 := (atLeast_rays hm1 rays (fun r hr' hin => ((hs.others _ (h1 r hr').1).resolve_right fun hn => hn ((h1 r hr').2.touch j hin)).symm) _ _ h0).2 (by
      obtain ⟨q, hq, hc, hn⟩ := hs.point
      obtain ⟨r, hr', rfl⟩ := h2 q hq
      refine ⟨r, hr', (h1 r hr').2.crosses hw ⟨1, by norm_num, le_refl _, ?_⟩⟩
      have e : s.stop config norm r.point = r.point := by unfold RayScan.stop rayEndPoint; rw [if_neg (not_lt.2 hn)]
      rw [e]
      intro i
      have := hc i
      unfold along
      simpa using this)
    exact h3.mono (by push_cast; linarith)) h hm hj hcov hsee 0 (Or.inl (by simp))).2
  rw [Nat.zero_add] at this
  exact this

/-! ## Maps of hashed blocks -/

theorem Scanned.mapped {config : RayTracingConfig} {w : ℚ} (hw : 0 < w) {norm : Point 3 → Point 3 → ℚ} {m m' : AnyMap} {ss : List RayScan}
    (h : Scanned config w norm m ss m') (hm : m.Mapped) (hcov : ∀ s ∈ ss, m.Contains config w norm s) : m'.Mapped ∧ m'.Covers = m.Covers ∧ m'.limits = m.limits := by
  induction h with
  | nil => exact ⟨hm, rfl, rfl⟩
  | @scan m m1 m2 s ss h1 _ ih =>
    obtain ⟨a1, a2, a3, _⟩ := h1.cell hw hm (hcov s List.mem_cons_self)
    obtain ⟨b1, b2, b3⟩ := ih a1 fun s' hs' q hq i hi => by rw [a2]; exact hcov s' (List.mem_cons_of_mem _ hs') q hq i hi
    exact ⟨b1, b2.trans a2, b3.trans a3⟩
  | threshold _ ih =>
    obtain ⟨a1, a2, _⟩ := hashedBlocks_tidy hm .threshold (Or.inl rfl)
    obtain ⟨b1, b2, b3⟩ := ih a1 fun _ _ _ _ _ _ => trivial
    exact ⟨b1, b2, b3.trans a2⟩
  | prune _ ih =>
    obtain ⟨a1, a2, _⟩ := hashedBlocks_tidy hm .prune (Or.inr rfl)
    obtain ⟨b1, b2, b3⟩ := ih a1 fun _ _ _ _ _ _ => trivial
    exact ⟨b1, b2, b3.trans a2⟩

theorem AnyMap.covers_of_limits {m : AnyMap} {l : ℚ × ℚ} (h : m.limits = some l) (j : Index 3) : m.Covers j := by
  cases m with
  | hashedBlocks b => trivial
  | _ => cases h

theorem foldl_within {lo hi : ℚ} (rays : List TracedRay) (p : TracedRay → Prop) [DecidablePred p] {combine : ℚ → ℚ → ℚ} (u : TracedRay → ℚ)
    (hcomb : ∀ v u, lo ≤ combine v u ∧ combine v u ≤ hi) (v : ℚ) (hv : lo ≤ v ∧ v ≤ hi) :
    lo ≤ rays.foldl (fun v r => if p r then combine v (u r) else v) v ∧ rays.foldl (fun v r => if p r then combine v (u r) else v) v ≤ hi := by
  induction rays generalizing v with
  | nil => exact hv
  | cons r rays ih =>
    rw [List.foldl_cons]
    refine ih _ ?_
    split
    · exact hcomb _ _
    · exact hv

/-- The values of a map of hashed blocks stay within its bounds, for every sequence of scans. -/
theorem C81_bounded (config : RayTracingConfig) (w : ℚ) (hw : 0 < w) (norm : Point 3 → Point 3 → ℚ) (mapConfig : MapBaseConfig) (hc : mapConfig.isValid = true)
    (dv : ℚ) (h0 : mapConfig.minLogOdds ≤ dv) (h1 : dv ≤ mapConfig.maxLogOdds) (scans : List RayScan) (m : AnyMap)
    (h : Scanned config w norm (.hashedBlocks (.create mapConfig dv)) scans m) (j : Index 3) :
    mapConfig.minLogOdds ≤ m.cell j ∧ m.cell j ≤ mapConfig.maxLogOdds := by
  have := (Scanned.induct hw j (fun _ => True) (fun l _ v => ∀ lo hi, l = some (lo, hi) → lo ≤ v ∧ v ≤ hi) (by
    intro m s rays n hm _ _ hv lo hi e
    have hle := hm.limits_le e
    have hcomb : ∀ v u, lo ≤ m.combine v u ∧ m.combine v u ≤ hi := by
      intro v u
      rw [AnyMap.combine_limits, e]
      exact ⟨le_max_left _ _, max_le hle (min_le_right _ _)⟩
    have hv := hv lo hi e
    exact foldl_within rays (fun r => j ∈ r.cells) (fun r => if j = pointToNearestIndex r.point (1 / w) then 17 / 20 else -2 / 5) hcomb _ hv) h ⟨mapConfig, dv, [], hc, rfl⟩ trivial (fun _ _ _ _ _ _ => trivial) (fun _ _ => trivial) 0 (by
      intro lo hi e
      cases e
      exact ⟨h0, h1⟩)).2
  exact this _ _ rfl

/-- An obstacle that is gone disappears: whatever was measured before, after so many scans that see through the cell that 0.4 times their number exceeds the upper
bound, the cell is free. -/
theorem C81_free (config : RayTracingConfig) (w : ℚ) (hw : 0 < w) (norm : Point 3 → Point 3 → ℚ) (mapConfig : MapBaseConfig) (hc : mapConfig.isValid = true)
    (dv : ℚ) (h0 : mapConfig.minLogOdds ≤ dv) (h1 : dv ≤ mapConfig.maxLogOdds) (before after : List RayScan) (m1 m2 : AnyMap)
    (hb : Scanned config w norm (.hashedBlocks (.create mapConfig dv)) before m1) (ha : Scanned config w norm m1 after m2) (j : Index 3)
    (hsee : ∀ s ∈ after, SeesThrough config w norm j s) (c : OccClassifier)
    (hmin : mapConfig.minLogOdds ≤ -(1 / 1000) ∧ mapConfig.minLogOdds < c.threshold)
    (hn : mapConfig.maxLogOdds - 2 / 5 * after.length ≤ -(1 / 1000) ∧ mapConfig.maxLogOdds - 2 / 5 * after.length < c.threshold) :
    c.classify (m2.cell j) = .free := by
  have hm0 : (AnyMap.hashedBlocks (.create mapConfig dv)).Mapped := ⟨mapConfig, dv, [], hc, rfl⟩
  obtain ⟨hm1, _, hl⟩ := hb.mapped hw hm0 fun _ _ _ _ _ _ => trivial
  have hl' : m1.limits = some (mapConfig.minLogOdds, mapConfig.maxLogOdds) := hl
  have hup := (C81_bounded config w hw norm mapConfig hc dv h0 h1 before m1 hb j).2
  have hv : m2.cell j ≤ -(1 / 1000) ∧ m2.cell j < c.threshold := by
    rcases C81_clears config w hw norm m1 m2 hm1 after j (m1.covers_of_limits hl' j) (fun _ _ _ _ i _ => m1.covers_of_limits hl' i) hsee ha with h | ⟨lo, hi, e, h⟩
    · exact ⟨by linarith [hn.1], by linarith [hn.2]⟩
    · rw [hl'] at e
      cases e
      rw [h]
      exact hmin
  unfold OccClassifier.classify OccClassifier.isUnobserved OccClassifier.unobservedThreshold
  rw [if_neg, if_pos hv.2]
  rw [decide_eq_true_eq, not_lt, abs_of_nonpos (by linarith [hv.1])]
  linarith [hv.1]

/-- A new obstacle appears: whatever was measured before, after so many scans that see a surface in the cell that 0.85 times their number exceeds the distance from
the lower bound to the threshold, the cell is occupied. -/
theorem C81_occupied (config : RayTracingConfig) (w : ℚ) (hw : 0 < w) (norm : Point 3 → Point 3 → ℚ) (mapConfig : MapBaseConfig) (hc : mapConfig.isValid = true)
    (dv : ℚ) (h0 : mapConfig.minLogOdds ≤ dv) (h1 : dv ≤ mapConfig.maxLogOdds) (before after : List RayScan) (m1 m2 : AnyMap)
    (hb : Scanned config w norm (.hashedBlocks (.create mapConfig dv)) before m1) (ha : Scanned config w norm m1 after m2) (j : Index 3)
    (hsee : ∀ s ∈ after, SeesSurface config w norm j s) (c : OccClassifier)
    (hmax : 1 / 1000 ≤ mapConfig.maxLogOdds ∧ c.threshold ≤ mapConfig.maxLogOdds)
    (hn : 1 / 1000 ≤ mapConfig.minLogOdds + 17 / 20 * after.length ∧ c.threshold ≤ mapConfig.minLogOdds + 17 / 20 * after.length) :
    c.classify (m2.cell j) = .occupied := by
  have hm0 : (AnyMap.hashedBlocks (.create mapConfig dv)).Mapped := ⟨mapConfig, dv, [], hc, rfl⟩
  obtain ⟨hm1, _, hl⟩ := hb.mapped hw hm0 fun _ _ _ _ _ _ => trivial
  have hl' : m1.limits = some (mapConfig.minLogOdds, mapConfig.maxLogOdds) := hl
  have hlow := (C81_bounded config w hw norm mapConfig hc dv h0 h1 before m1 hb j).1
  have hv : 1 / 1000 ≤ m2.cell j ∧ c.threshold ≤ m2.cell j := by
    rcases C81_appears config w hw norm m1 m2 hm1 after j (m1.covers_of_limits hl' j) (fun _ _ _ _ i _ => m1.covers_of_limits hl' i) hsee ha with h | ⟨lo, hi, e, h⟩
    · exact ⟨by linarith [hn.1], by linarith [hn.2]⟩
    · rw [hl'] at e
      cases e
      rw [h]
      exact hmax
  unfold OccClassifier.classify OccClassifier.isUnobserved OccClassifier.unobservedThreshold
  rw [if_neg, if_neg (not_lt.2 hv.2)]
  rw [decide_eq_true_eq, not_lt, abs_of_nonneg (by linarith [hv.1])]
  exact hv.1

/-! ## Hashed wavelet octrees with thresholding -/

theorem HashedWaveletOctree.Reachable.mapped {m : HashedWaveletOctree} (h : m.Reachable) : m.Mapped := by
  obtain ⟨config, hc, hH, ops, hr⟩ := h
  refine ⟨config, hc, hH, ops.map .op, fun o ho => ?_, ?_⟩
  · obtain ⟨_, _, rfl⟩ := List.mem_map.1 ho
    trivial
  · rw [← hr]
    clear hr
    generalize HashedWaveletOctree.create config = m0
    induction ops generalizing m0 with
    | nil => rfl
    | cons o ops ih => exact ih (o.run m0)

theorem HashedWaveletOctree.Reachable.op {m : HashedWaveletOctree} (h : m.Reachable) (o : HashedWaveletOp) : (o.run m).Reachable := by
  obtain ⟨config, hc, hH, ops, hr⟩ := h
  exact ⟨config, hc, hH, ops ++ [o], by rw [List.foldl_append, hr]; rfl⟩

/-- A hashed wavelet octree only keeps to its bounds when it is thresholded. From then on each scan that sees through a cell lowers its value by at least 0.4, from
at most the upper bound (or 0, the value of cells that are not stored). What comes out is again a map as at the beginning, so this can be repeated. -/
theorem C81_thresholded (config : RayTracingConfig) (w : ℚ) (hw : 0 < w) (norm : Point 3 → Point 3 → ℚ) (m : HashedWaveletOctree) (hm : m.Reachable)
    (scans : List RayScan) (j : Index 3) (hsee : ∀ s ∈ scans, SeesThrough config w norm j s) (m' : AnyMap)
    (h : Scanned config w norm (.hashedWavelet m.threshold) scans m') :
    m'.cell j ≤ max m.config.maxLogOdds 0 - 2 / 5 * scans.length ∧ ∃ t, m' = .hashedWavelet t ∧ t.Reachable ∧ t.config = m.config := by
  have hth : m.threshold.Reachable := hm.op (.write .threshold)
  have hup : (AnyMap.hashedWavelet m.threshold).cell j ≤ max m.config.maxLogOdds 0 := by
    show m.threshold.getCellValue j ≤ _
    rw [C21_hashed_wavelet_clamps m hm j]
    split
    · have := hm.inv.bounds
      exact max_le (this.trans (le_max_left _ _)) ((min_le_right _ _).trans (le_max_left _ _))
    · exact le_max_right _ _
  refine ⟨?_, ?_⟩
  · rcases C81_clears config w hw norm _ m' (show (AnyMap.hashedWavelet m.threshold).Mapped from hth.mapped) scans j trivial (fun _ _ _ _ _ _ => trivial) hsee h with h' | ⟨_, _, e, _⟩
    · linarith
    · cases e
  · have hcfg : m.threshold.config = m.config := rfl
    clear hup hsee
    generalize m.threshold = t at *
    generalize hM : AnyMap.hashedWavelet t = M at h
    induction h generalizing t with
    | nil => exact ⟨t, hM.symm, hth, hcfg⟩
    | @scan M m1 m2 s ss h1 _ ih =>
      subst hM
      cases h1 with
      | invalid h => cases h
      | @integrated rays _ _ _ =>
        have : ∀ (ws : List CellWrite) (t : HashedWaveletOctree), t.Reachable → t.config = m.config →
            ∃ t', (AnyMap.hashedWavelet t).writeCells ws = .hashedWavelet t' ∧ t'.Reachable ∧ t'.config = m.config := by
          intro ws
          induction ws with
          | nil => intro t h1 h2; exact ⟨t, rfl, h1, h2⟩
          | cons x ws ih => intro t h1 h2; exact ih _ (h1.op (.write (.add x.index x.update x.now))) h2
        obtain ⟨t', e1, e2, e3⟩ := this (rays.flatMap (TracedRay.writes w)) t hth hcfg
        exact ih t' e2 e3 e1.symm
    | threshold _ _ => cases hM
    | prune _ _ => cases hM

/-! ## The fixed-resolution integrator -/

/-- A measurement as the fixed-resolution integrator sees it: the box that it visits, the update of each cell, and the times of writing. -/
structure BoxScan where
  min : Index 3
  max : Index 3
  update : Index 3 → ℚ
  now : Index 3 → ℚ

/-- The cell is in the box. -/
def BoxScan.Has (s : BoxScan) (j : Index 3) : Prop := ∀ k, s.min k ≤ j k ∧ j k ≤ s.max k

/-- Integrating measurements one after the other. -/
def integrateBoxes (m : AnyMap) (scans : List BoxScan) : Option AnyMap := scans.foldlM (fun m s => fixedUpdateMap s.min s.max s.update s.now m) m

theorem integrateBoxes_step {m : AnyMap} (hm : m.Mapped) {s : BoxScan} (hv : ∀ k, s.min k ≤ s.max k) (hcov : ∀ i, s.Has i → m.Covers i) :
    ∃ m1, fixedUpdateMap s.min s.max s.update s.now m = some m1 ∧ m1.Mapped ∧ m1.Covers = m.Covers ∧ m1.limits = m.limits ∧
      ∀ j, m.Covers j → s.Has j → 1 / 1000000 < |s.update j| → m1.cell j = m.combine (m.cell j) (s.update j) := by
  obtain ⟨m1, e, h1, h2⟩ := C66_cells m hm s.min s.max hv hcov s.update s.now
  refine ⟨m1, e, h1, ?_, ?_, fun j hj hin hu => by rw [h2 j hj, if_pos ⟨hin, hu⟩]⟩
  · unfold fixedUpdateMap at e
    obtain ⟨l, hl, rfl⟩ := Option.map_eq_some_iff.1 e
    obtain ⟨l', hl', _, hmem⟩ := gridIndices_spec s.min s.max hv
    rw [hl] at hl'
    cases hl'
    exact (hm.writeCells _ (by
      intro x hx
      obtain ⟨i, hi, he⟩ := List.mem_filterMap.1 hx
      split at he
      · injection he with he
        subst he
        exact hcov i ((hmem i).1 hi)
      · cases he)).2.1
  · unfold fixedUpdateMap at e
    obtain ⟨l, _, rfl⟩ := Option.map_eq_some_iff.1 e
    exact AnyMap.limits_writeCells _ _

/-- The same for the fixed-resolution integrator: if every measurement's update of a cell is at most `-c`, the cell's value falls by at least `c` each time, or is
at the lower limit; and rises if every update is at least `c`. -/
theorem C81_fixed_resolution (m : AnyMap) (hm : m.Mapped) (scans : List BoxScan) (hv : ∀ s ∈ scans, ∀ k, s.min k ≤ s.max k)
    (hcov : ∀ s ∈ scans, ∀ i, s.Has i → m.Covers i) (j : Index 3) (hj : m.Covers j) (hin : ∀ s ∈ scans, s.Has j) (c : ℚ) (hc : 1 / 1000000 < c) :
    ∃ m', integrateBoxes m scans = some m' ∧
    ((∀ s ∈ scans, s.update j ≤ -c) → m'.cell j ≤ m.cell j - c * scans.length ∨ ∃ lo hi, m.limits = some (lo, hi) ∧ m'.cell j = lo) ∧
    ((∀ s ∈ scans, c ≤ s.update j) → m.cell j + c * scans.length ≤ m'.cell j ∨ ∃ lo hi, m.limits = some (lo, hi) ∧ m'.cell j = hi) := by
  suffices ∀ (scans : List BoxScan) (m : AnyMap), m.Mapped → (∀ s ∈ scans, ∀ k, s.min k ≤ s.max k) → (∀ s ∈ scans, ∀ i, s.Has i → m.Covers i) → m.Covers j →
      (∀ s ∈ scans, s.Has j) → ∃ m', integrateBoxes m scans = some m' ∧
      (∀ b, (∀ s ∈ scans, s.update j ≤ -c) → AtMost m.limits b (m.cell j) → AtMost m.limits (b - c * scans.length) (m'.cell j)) ∧
      (∀ b, (∀ s ∈ scans, c ≤ s.update j) → AtLeast m.limits b (m.cell j) → AtLeast m.limits (b + c * scans.length) (m'.cell j)) by
    obtain ⟨m', e, h1, h2⟩ := this scans m hm hv hcov hj hin
    exact ⟨m', e, fun h => h1 _ h (Or.inl le_rfl), fun h => h2 _ h (Or.inl le_rfl)⟩
  clear hm hv hcov hj hin m scans
  intro scans
  induction scans with
  | nil => intro m _ _ _ _ _; exact ⟨m, rfl, fun b _ h => by simpa using h, fun b _ h => by simpa using h⟩
  | cons s scans ih =>
    intro m hm hv hcov hj hin
    obtain ⟨m1, e1, a1, a2, a3, a4⟩ := integrateBoxes_step hm (hv s List.mem_cons_self) (hcov s List.mem_cons_self)
    obtain ⟨m', e, h1, h2⟩ := ih m1 a1 (fun s' hs' => hv s' (List.mem_cons_of_mem _ hs')) (fun s' hs' => by rw [a2]; exact hcov s' (List.mem_cons_of_mem _ hs'))
      (by rw [a2]; exact hj) (fun s' hs' => hin s' (List.mem_cons_of_mem _ hs'))
    rw [a3] at h1 h2
    refine ⟨m', by unfold integrateBoxes at *; rw [List.foldlM_cons, e1]; exact e, fun b hu hb => ?_, fun b hu hb => ?_⟩
    · have hu' := hu s List.mem_cons_self
      have hcell := a4 j hj (hin s List.mem_cons_self) (by rw [abs_of_nonpos (by linarith)]; linarith)
      have := hb.sub hm (u := s.update j) (by linarith)
      rw [← hcell] at this
      refine (h1 _ (fun s' hs' => hu s' (List.mem_cons_of_mem _ hs')) this).mono ?_
      rw [List.length_cons]; push_cast; linarith
    · have hu' := hu s List.mem_cons_self
      have hcell := a4 j hj (hin s List.mem_cons_self) (by rw [abs_of_nonneg (by linarith)]; linarith)
      have := hb.add hm (u := s.update j) (by linarith)
      rw [← hcell] at this
      refine (h2 _ (fun s' hs' => hu s' (List.mem_cons_of_mem _ hs')) this).mono ?_
      rw [List.length_cons]; push_cast; linarith

/-! ## Where it fails -/

theorem scanned_exists (config : RayTracingConfig) (w : ℚ) (norm : Point 3 → Point 3 → ℚ) (ss : List RayScan) (hne : ∀ s ∈ ss, s.cloud ≠ []) (m : AnyMap) :
    ∃ m', Scanned config w norm m ss m' := by
  induction ss generalizing m with
  | nil => exact ⟨m, .nil⟩
  | cons s ss ih =>
    obtain ⟨m1, h1⟩ := (C67_completes_partial config w norm true s.start s.cloud (hne s List.mem_cons_self) m).1
    obtain ⟨m2, h2⟩ := ih (fun s' hs' => hne s' (List.mem_cons_of_mem _ hs')) m1
    exact ⟨m2, .scan h1 h2⟩

/-- A scan with one point at (2.5, 0.5, 0.5), seen from (0.5, 0.5, 0.5). -/
def raySurfaceScan : RayScan := ⟨fun _ => 1 / 2, [some ![5 / 2, 1 / 2, 1 / 2]]⟩

/-- A scan with one point at (4.5, 0.5, 0.5), seen from (0.5, 0.5, 0.5). -/
def rayThroughScan : RayScan := ⟨fun _ => 1 / 2, [some ![9 / 2, 1 / 2, 1 / 2]]⟩

/-- A scan with a point at (2.5, 0.5, 0.5), and three behind it. -/
def rayGrazingScan : RayScan := ⟨fun _ => 1 / 2, [some ![5 / 2, 1 / 2, 1 / 2], some ![9 / 2, 1 / 2, 1 / 2], some ![9 / 2, 1 / 2, 3 / 4], some ![9 / 2, 3 / 4, 1 / 2]]⟩

theorem raySurfaceScan_used : usedPoints raySurfaceScan.start raySurfaceScan.cloud = [![5 / 2, 1 / 2, 1 / 2]] := by decide +kernel
theorem rayThroughScan_used : usedPoints rayThroughScan.start rayThroughScan.cloud = [![9 / 2, 1 / 2, 1 / 2]] := by decide +kernel
theorem rayGrazingScan_used : usedPoints rayGrazingScan.start rayGrazingScan.cloud =
    [![5 / 2, 1 / 2, 1 / 2], ![9 / 2, 1 / 2, 1 / 2], ![9 / 2, 1 / 2, 3 / 4], ![9 / 2, 3 / 4, 1 / 2]] := by decide +kernel

theorem raySurfaceScan_sees : SeesSurface ⟨1 / 2, 20⟩ 1 (fun _ _ => 5) ![2, 0, 0] raySurfaceScan where
  point := ⟨![5 / 2, 1 / 2, 1 / 2], by rw [raySurfaceScan_used]; simp, by unfold InsideCell; decide +kernel, by norm_num⟩
  others q hq := by
    rw [raySurfaceScan_used, List.mem_singleton] at hq
    subst hq
    exact Or.inl (by decide +kernel)

theorem rayThroughScan_sees : SeesThrough ⟨1 / 2, 20⟩ 1 (fun _ _ => 5) ![2, 0, 0] rayThroughScan where
  beam := ⟨![9 / 2, 1 / 2, 1 / 2], by rw [rayThroughScan_used]; simp, 1 / 2, by norm_num, by norm_num, by unfold InsideCell; decide +kernel⟩
  empty q hq := by
    rw [rayThroughScan_used, List.mem_singleton] at hq
    subst hq
    decide +kernel

/-- Finding: without thresholding there is no bound on the number of scans. However many scans see through a cell, it may still be above the upper bound of 4
afterwards. -/
theorem C81_unthresholded_fails (n : Nat) : ∃ (before : List RayScan) (m1 m2 : AnyMap),
    Scanned ⟨1 / 2, 20⟩ 1 (fun _ _ => 5) (.hashedWavelet (.create ⟨1, -2, 4, 2, 5⟩)) before m1 ∧
    Scanned ⟨1 / 2, 20⟩ 1 (fun _ _ => 5) m1 (List.replicate n rayThroughScan) m2 ∧ (∀ s ∈ List.replicate n rayThroughScan, SeesThrough ⟨1 / 2, 20⟩ 1 (fun _ _ => 5) ![2, 0, 0] s) ∧
    4 < m2.cell ![2, 0, 0] := by
  have hm0 : (AnyMap.hashedWavelet (.create ⟨1, -2, 4, 2, 5⟩)).Mapped := ⟨⟨1, -2, 4, 2, 5⟩, by decide +kernel, by decide, [], by simp, rfl⟩
  obtain ⟨m1, h1⟩ := scanned_exists ⟨1 / 2, 20⟩ 1 (fun _ _ => 5) (List.replicate (n + 10) raySurfaceScan)
    (fun s hs => by rw [List.eq_of_mem_replicate hs]; simp [raySurfaceScan]) (.hashedWavelet (.create ⟨1, -2, 4, 2, 5⟩))
  obtain ⟨m2, h2⟩ := scanned_exists ⟨1 / 2, 20⟩ 1 (fun _ _ => 5) (List.replicate n rayThroughScan)
    (fun s hs => by rw [List.eq_of_mem_replicate hs]; simp [rayThroughScan]) m1
  refine ⟨_, m1, m2, h1, h2, fun s hs => by rw [List.eq_of_mem_replicate hs]; exact rayThroughScan_sees, ?_⟩
  obtain ⟨hm1, hcv, hl⟩ := h1.mapped (by norm_num) hm0 fun _ _ _ _ _ _ => trivial
  have hcv' : ∀ j, m1.Covers j := fun j => by rw [hcv]; trivial
  have hlow : 17 / 20 * ((n : ℚ) + 10) ≤ m1.cell ![2, 0, 0] := by
    rcases C81_appears _ 1 (by norm_num) _ _ m1 hm0 _ ![2, 0, 0] trivial (fun _ _ _ _ _ _ => trivial)
      (fun s hs => by rw [List.eq_of_mem_replicate hs]; exact raySurfaceScan_sees) h1 with h | ⟨_, _, e, _⟩
    · rw [List.length_replicate] at h
      have e : (AnyMap.hashedWavelet (.create ⟨1, -2, 4, 2, 5⟩)).cell ![2, 0, 0] = 0 := rfl
      rw [e] at h
      push_cast at h
      linarith
    · cases e
  have hdown := (Scanned.induct (by norm_num) ![2, 0, 0] (fun s => s = rayThroughScan)
    (fun l n v => l = none → m1.cell ![2, 0, 0] - 2 / 5 * n ≤ v) (by
      rintro m _ rays n hm rfl hr h0 hl
      have hp := (C67_rays _ 1 (by norm_num) _ _ _ rays hr).1
      rw [rayThroughScan_used] at hp
      obtain ⟨r, rfl⟩ : ∃ r, rays = [r] := by
        cases rays with
        | nil => cases hp
        | cons r rays => cases rays with
          | nil => exact ⟨r, rfl⟩
          | cons _ _ => simp at hp
      have hp' : r.point = ![9 / 2, 1 / 2, 1 / 2] := by simpa using hp
      have h0 := h0 hl
      rw [List.foldl_cons, List.foldl_nil]
      push_cast
      split
      · rw [AnyMap.combine_limits, hl]
        show _ ≤ m.cell ![2, 0, 0] + _
        split <;> linarith
      · linarith) h2 hm1 (hcv' _) (fun _ _ _ _ i _ => hcv' i)
      (fun s hs => List.eq_of_mem_replicate hs) 0 (by intro _; simp)).2 (by rw [hl]; rfl)
  rw [List.length_replicate, Nat.zero_add] at hdown
  have : (0 : ℚ) ≤ n := Nat.cast_nonneg n
  linarith

/-- Finding: beams that pass through a cell outweigh the points in it. If each scan has one point in the middle of a cell and three beams that go through the cell to
points behind it, the cell's value falls with every scan, so it is never occupied, however many scans there are. -/
theorem C81_grazing_fails (n : Nat) (m : AnyMap)
    (h : Scanned ⟨1 / 2, 20⟩ 1 (fun _ _ => 5) (.hashedWavelet (.create ⟨1, -2, 4, 2, 5⟩)) (List.replicate n rayGrazingScan) m) :
    (∃ q ∈ usedPoints rayGrazingScan.start rayGrazingScan.cloud, InsideCell 1 ![2, 0, 0] q) ∧ m.cell ![2, 0, 0] ≤ -7 / 20 * n := by
  have hm0 : (AnyMap.hashedWavelet (.create ⟨1, -2, 4, 2, 5⟩)).Mapped := ⟨⟨1, -2, 4, 2, 5⟩, by decide +kernel, by decide, [], by simp, rfl⟩
  refine ⟨⟨![5 / 2, 1 / 2, 1 / 2], by rw [rayGrazingScan_used]; simp, by unfold InsideCell; decide +kernel⟩, ?_⟩
  have := (Scanned.induct (by norm_num) ![2, 0, 0] (fun s => s = rayGrazingScan) (fun l n v => l = none → v ≤ -7 / 20 * n) (by
      rintro m _ rays n hm rfl hr h0 hl
      obtain ⟨hp, hb⟩ := C67_rays _ 1 (by norm_num) _ _ _ rays hr
      rw [rayGrazingScan_used] at hp
      obtain ⟨r0, rays, rfl, hp0, hp⟩ := List.map_eq_cons_iff.1 hp
      obtain ⟨r1, rays, rfl, hp1, hp⟩ := List.map_eq_cons_iff.1 hp
      obtain ⟨r2, rays, rfl, hp2, hp⟩ := List.map_eq_cons_iff.1 hp
      obtain ⟨r3, rays, rfl, hp3, hp⟩ := List.map_eq_cons_iff.1 hp
      obtain rfl := List.map_eq_nil_iff.1 hp
      have hc : ∀ r : TracedRay, r ∈ [r0, r1, r2, r3] → ∀ q, r.point = q → (![2, 0, 0] : Index 3) ≠ pointToNearestIndex q (1 / 1) →
          Crosses rayGrazingScan.start (rayEndPoint rayGrazingScan.start q 5 20) 1 ![2, 0, 0] →
          ∀ v, (if ![2, 0, 0] ∈ r.cells then m.combine v (if ![2, 0, 0] = pointToNearestIndex r.point (1 / 1) then 17 / 20 else -2 / 5) else v) = v - 2 / 5 := by
        intro r hr q hq hne hcr v
        have hin : ![2, 0, 0] ∈ r.cells := (hb r hr).crosses (by norm_num) (by rw [hq]; exact hcr)
        rw [if_pos hin, hq, if_neg hne, AnyMap.combine_limits, hl]
        show v + _ = _
        ring
      have e1 := hc r1 (by simp) _ hp1 (by decide +kernel) ⟨1 / 2, by norm_num, by norm_num, by unfold InsideCell; decide +kernel⟩
      have e2 := hc r2 (by simp) _ hp2 (by decide +kernel) ⟨1 / 2, by norm_num, by norm_num, by unfold InsideCell; decide +kernel⟩
      have e3 := hc r3 (by simp) _ hp3 (by decide +kernel) ⟨1 / 2, by norm_num, by norm_num, by unfold InsideCell; decide +kernel⟩
      have h0 := h0 hl
      simp only [List.foldl_cons, List.foldl_nil]
      rw [e3, e2, e1]
      push_cast
      split
      · rw [AnyMap.combine_limits, hl]
        show m.cell ![2, 0, 0] + _ - _ - _ - _ ≤ _
        split <;> linarith
      · linarith) h hm0 trivial (fun _ _ _ _ _ _ => trivial) (fun s hs => List.eq_of_mem_replicate hs) 0
      (by intro _; show (0 : ℚ) ≤ _; norm_num)).2 rfl
  rw [List.length_replicate, Nat.zero_add] at this
  exact this

/-! ## The hypotheses are met -/

/-- With the default settings three scans show a new obstacle and eleven remove it, after any history. -/
example (before : List RayScan) (m1 : AnyMap) (hb : Scanned ⟨1 / 2, 20⟩ 1 (fun _ _ => 5) (.hashedBlocks (.create ⟨1, -2, 4⟩ 0)) before m1) :
    (∃ m2, Scanned ⟨1 / 2, 20⟩ 1 (fun _ _ => 5) m1 (List.replicate 3 raySurfaceScan) m2 ∧ (⟨0⟩ : OccClassifier).classify (m2.cell ![2, 0, 0]) = .occupied) ∧
    ∃ m2, Scanned ⟨1 / 2, 20⟩ 1 (fun _ _ => 5) m1 (List.replicate 11 rayThroughScan) m2 ∧ (⟨0⟩ : OccClassifier).classify (m2.cell ![2, 0, 0]) = .free := by
  constructor
  · obtain ⟨m2, h2⟩ := scanned_exists ⟨1 / 2, 20⟩ 1 (fun _ _ => 5) (List.replicate 3 raySurfaceScan) (by simp [raySurfaceScan]) m1
    exact ⟨m2, h2, C81_occupied _ 1 (by norm_num) _ ⟨1, -2, 4⟩ (by decide +kernel) 0 (by norm_num) (by norm_num) before _ m1 m2 hb h2 _
      (fun s hs => by rw [List.eq_of_mem_replicate hs]; exact raySurfaceScan_sees) _ (by norm_num) (by norm_num)⟩
  · obtain ⟨m2, h2⟩ := scanned_exists ⟨1 / 2, 20⟩ 1 (fun _ _ => 5) (List.replicate 11 rayThroughScan) (by simp [rayThroughScan]) m1
    exact ⟨m2, h2, C81_free _ 1 (by norm_num) _ ⟨1, -2, 4⟩ (by decide +kernel) 0 (by norm_num) (by norm_num) before _ m1 m2 hb h2 _
      (fun s hs => by rw [List.eq_of_mem_replicate hs]; exact rayThroughScan_sees) _ (by norm_num) (by norm_num)⟩

example : -- two measurements of a box of 27 cells
    let m : AnyMap := .hashedBlocks (.create ⟨1, -2, 4⟩ 0)
    let s : BoxScan := ⟨fun _ => -1, fun _ => 1, fun i => if i = fun _ => 0 then -3 / 2 else 1, fun _ => 0⟩
    m.Mapped ∧ s.Has (fun _ => 0) ∧ (integrateBoxes m [s, s]).any (fun m' => decide (m'.cell (fun _ => 0) = -2 ∧ m'.cell (fun _ => 1) = 2)) = true := by
  refine ⟨⟨⟨1, -2, 4⟩, 0, [], by decide +kernel, rfl⟩, ?_, by decide +kernel⟩
  unfold BoxScan.Has
  decide +kernel

example : ∃ m, Scanned ⟨1 / 2, 20⟩ 1 (fun _ _ => 5) (.hashedWavelet (.create ⟨1, -2, 4, 2, 5⟩)) (List.replicate 9 rayGrazingScan) m :=
  scanned_exists _ _ _ _ (by simp [rayGrazingScan]) _

end Wavemap
