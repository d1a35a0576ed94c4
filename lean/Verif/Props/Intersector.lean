import Verif.Props.RangeBounds
import Verif.Props.Measurement
import Mathlib.Analysis.Real.Pi.Bounds
/-!
# C41: coarse-to-fine skipping is safe

A cell is given by its box in sensor coordinates; that the box contains the sensor coordinates of all points of the cell is
the projector's contract (see `Props/Projectors.lean`).
-/
namespace Wavemap

/-! ## Specification -/

/-- The sensor coordinates inside a box; a box with `hi.v < lo.v` runs through the seam. -/
def SensorBox.Contains (box : SensorBox) (s : SensorCoordinates) : Prop :=
  box.lo.u ≤ s.u ∧ s.u ≤ box.hi.u ∧ box.lo.depth ≤ s.depth ∧ s.depth ≤ box.hi.depth ∧
    if box.hi.v < box.lo.v then box.lo.v ≤ s.v ∨ s.v ≤ box.hi.v else box.lo.v ≤ s.v ∧ s.v ≤ box.hi.v

/-- The pixels a measurement model reads for a point: the (up to four) pixels around its image coordinates. -/
def Consulted (g : ImageGrid) (s : SensorCoordinates) (i : Idx2) : Prop :=
  (i.1 = ⌊g.indexRealU s.u⌋ ∨ i.1 = ⌈g.indexRealU s.u⌉) ∧ (i.2 = ⌊g.indexRealV s.v⌋ ∨ i.2 = ⌈g.indexRealV s.v⌉)

/-- Missing returns are zero or negative; all other pixels are at or beyond the minimum range. -/
def PixelsOk (im : Image ℝ) (minRange : ℝ) : Prop := ∀ i v, im.at i = some v → v ≤ 0 ∨ minRange ≤ v

/-- Conditions on the intersector that every projector and measurement model meets. -/
structure Intersector.Ok (r : Intersector) : Prop where
  constructed : Constructed r.bounds
  size : SizeOk r.bounds.image
  minRange : r.bounds.minRange = r.minRange
  scaleU : 0 < r.grid.scaleU
  scaleV : 0 < r.grid.scaleV
  angle : 0 ≤ r.angleThreshold
  pow : r.bounds.wraps = true → ∃ m, r.bounds.image.cols = 2 ^ m

/-- First and last pixel of the padded box. -/
noncomputable def Intersector.minIndex (r : Intersector) (box : SensorBox) : Idx2 :=
  r.grid.floorIndex (box.lo.u - r.angleThreshold) (box.lo.v - r.angleThreshold)
/-- First and last pixel of the padded box. -/
noncomputable def Intersector.maxIndex (r : Intersector) (box : SensorBox) : Idx2 :=
  r.grid.ceilIndex (box.hi.u + r.angleThreshold) (box.hi.v + r.angleThreshold)

/-- A box through the seam still does so after padding, and (for a sensor whose columns wrap around) starts and ends inside
the image. -/
def SeamOk (r : Intersector) (box : SensorBox) : Prop :=
  box.hi.v < box.lo.v → (r.maxIndex box).2 < (r.minIndex box).2 ∧
    (r.bounds.wraps = true → 0 ≤ (r.maxIndex box).2 ∧ (r.minIndex box).2 < r.bounds.image.cols)

/-! ## Lemmas -/

theorem roundR_floor_or_ceil (x : ℝ) : roundR x = ⌊x⌋ ∨ roundR x = ⌈x⌉ := by
  have a := Int.floor_le x
  have b := Int.lt_floor_add_one x
  have c := Int.le_ceil x
  have d := Int.ceil_lt_add_one x
  have fc : ⌊x⌋ ≤ ⌈x⌉ := Int.floor_le_ceil x
  have cf : ⌈x⌉ ≤ ⌊x⌋ + 1 := Int.ceil_le_floor_add_one x
  unfold roundR
  split
  · have h1 : ⌊x⌋ ≤ ⌊x + 1 / 2⌋ := Int.floor_le_floor (by linarith)
    have h2 : ⌊x + 1 / 2⌋ < ⌊x⌋ + 2 := by
      rw [Int.floor_lt]; push_cast; linarith
    by_cases h3 : ⌊x + 1 / 2⌋ = ⌊x⌋
    · exact Or.inl h3
    · right
      have h4 : ⌊x + 1 / 2⌋ = ⌊x⌋ + 1 := by omega
      have h5 : ((⌊x⌋ + 1 : Int) : ℝ) ≤ x + 1 / 2 := by rw [← h4]; exact Int.floor_le _
      push_cast at h5
      have h6 : ⌊x⌋ < ⌈x⌉ := by rw [Int.lt_ceil]; linarith
      omega
  · have h1 : ⌈x - 1 / 2⌉ ≤ ⌈x⌉ := Int.ceil_le_ceil (by linarith)
    have h2 : ⌈x⌉ - 2 < ⌈x - 1 / 2⌉ := by
      rw [Int.lt_ceil]; push_cast; linarith
    by_cases h3 : ⌈x - 1 / 2⌉ = ⌈x⌉
    · exact Or.inr h3
    · left
      have h4 : ⌈x - 1 / 2⌉ = ⌈x⌉ - 1 := by omega
      have h5 : x - 1 / 2 ≤ ((⌈x⌉ - 1 : Int) : ℝ) := by rw [← h4]; exact Int.le_ceil _
      push_cast at h5
      have h6 : ⌊x⌋ < ⌈x⌉ := by rw [Int.floor_lt]; linarith
      omega

theorem consulted_nearest (g : ImageGrid) (s : SensorCoordinates) : Consulted g s (g.nearestIndex s.u s.v) :=
  ⟨roundR_floor_or_ceil _, roundR_floor_or_ceil _⟩

theorem consulted_nearestIndices (g : ImageGrid) (s : SensorCoordinates) (i : Idx2) (h : i ∈ g.nearestIndices s.u s.v) :
    Consulted g s i := by
  unfold ImageGrid.nearestIndices ImageGrid.floorIndex ImageGrid.ceilIndex at h
  simp only [List.mem_cons, List.not_mem_nil, or_false] at h
  rcases h with rfl | rfl | rfl | rfl
  · exact ⟨Or.inl rfl, Or.inl rfl⟩
  · exact ⟨Or.inr rfl, Or.inl rfl⟩
  · exact ⟨Or.inl rfl, Or.inr rfl⟩
  · exact ⟨Or.inr rfl, Or.inr rfl⟩

/-- A point above the lower end of an axis interval is read from pixels above its first pixel. -/
theorem axis_low {scale off lo x thr : ℝ} (hs : 0 < scale) (ht : 0 ≤ thr) (h : lo ≤ x) {i : Int}
    (hi : i = ⌊(x - off) * (1 / scale)⌋ ∨ i = ⌈(x - off) * (1 / scale)⌉) :
    ⌊(lo - thr - off) * (1 / scale)⌋ ≤ i := by
  have h1 : (lo - thr - off) * (1 / scale) ≤ (x - off) * (1 / scale) :=
    mul_le_mul_of_nonneg_right (by linarith) (by positivity)
  have h2 := Int.floor_le_floor h1
  rcases hi with rfl | rfl
  · exact h2
  · exact h2.trans (Int.floor_le_ceil _)

theorem axis_high {scale off hi x thr : ℝ} (hs : 0 < scale) (ht : 0 ≤ thr) (h : x ≤ hi) {i : Int}
    (hi' : i = ⌊(x - off) * (1 / scale)⌋ ∨ i = ⌈(x - off) * (1 / scale)⌉) :
    i ≤ ⌈(hi + thr - off) * (1 / scale)⌉ := by
  have h1 : (x - off) * (1 / scale) ≤ (hi + thr - off) * (1 / scale) :=
    mul_le_mul_of_nonneg_right (by linarith) (by positivity)
  have h2 := Int.ceil_le_ceil h1
  rcases hi' with rfl | rfl
  · exact (Int.floor_le_ceil _).trans h2
  · exact h2

/-- The pixels read for a point of the box lie in the padded pixel interval. -/
theorem consulted_interval (r : Intersector) (hr : r.Ok) (box : SensorBox) (hseam : SeamOk r box) (s : SensorCoordinates)
    (hs : box.Contains s) (i : Idx2) (hi : Consulted r.grid s i) :
    (r.minIndex box).1 ≤ i.1 ∧ i.1 ≤ (r.maxIndex box).1 ∧
      (if box.hi.v < box.lo.v then ((r.maxIndex box).2 < (r.minIndex box).2 ∧ ((r.minIndex box).2 ≤ i.2 ∨ i.2 ≤ (r.maxIndex box).2))
        else (r.minIndex box).2 ≤ i.2 ∧ i.2 ≤ (r.maxIndex box).2) := by
  obtain ⟨h1, h2, _, _, h5⟩ := hs
  obtain ⟨hi1, hi2⟩ := hi
  refine ⟨axis_low hr.scaleU hr.angle h1 hi1, axis_high hr.scaleU hr.angle h2 hi1, ?_⟩
  split
  · rename_i hw
    rw [if_pos hw] at h5
    refine ⟨(hseam hw).1, ?_⟩
    exact h5.imp (fun h => axis_low hr.scaleV hr.angle h hi2) (fun h => axis_high hr.scaleV hr.angle h hi2)
  · rename_i hw
    rw [if_neg hw] at h5
    exact ⟨axis_low hr.scaleV hr.angle h5.1 hi2, axis_high hr.scaleV hr.angle h5.2 hi2⟩

/-- The clamped interval handed to the hierarchical range image is valid. -/
theorem clamped_valid (h : RangeBounds) (mn mx : Idx2) (hx : mn.1 ≤ mx.1) (hx0 : 0 ≤ mx.1) (hx1 : mn.1 < h.image.rows)
    (hy0 : 0 ≤ mx.2) (hy1 : mn.2 < h.image.cols) (hy : mn.2 ≤ mx.2 ∨ h.wraps = true) (hsz : SizeOk h.image) :
    ValidInterval h (max mn.1 0, max mn.2 0)
      (min mx.1 ((h.image.rows : Int) - 1), min mx.2 ((h.image.cols : Int) - 1)) := by
  obtain ⟨r0, _, c0, _⟩ := hsz
  unfold ValidInterval
  refine ⟨by simp, by simp only; omega, by simp only; omega, by simp, by simp only; omega, by simp only; omega,
    by simp only; omega, ?_⟩
  rcases hy with hy | hy
  · left; simp only; omega
  · exact Or.inr hy

/-- Outcome of the part that queries the hierarchical range image. -/
theorem determine_query (r : Intersector) (box : SensorBox) (t : UpdateType)
    (h : r.determineUpdateType false box = some t) :
    (t = .fullyUnobserved ∧ (r.maxRange < box.lo.depth ∨ box.hi.depth < r.minRange)) ∨
    (((r.maxIndex box).1 < (r.minIndex box).1 ∨ (r.bounds.wraps = false ∧ (r.maxIndex box).2 < (r.minIndex box).2)) ∧
      (t = .possiblyOccupied ∨ (t = .fullyUnobserved ∧
        (¬ (r.maxIndex box).1 < (r.minIndex box).1 ∨
          ((r.maxIndex box).1 < 0 ∧ (r.bounds.image.rows : Int) < (r.minIndex box).1)) ∧
        (r.bounds.wraps = true ∨ ¬ (r.maxIndex box).2 < (r.minIndex box).2 ∨
          ((r.maxIndex box).2 < 0 ∧ (r.bounds.image.cols : Int) < (r.minIndex box).2))))) ∨
    (t = .fullyUnobserved ∧ (r.minIndex box).1 ≤ (r.maxIndex box).1 ∧
      ((r.minIndex box).2 ≤ (r.maxIndex box).2 ∨ r.bounds.wraps = true) ∧
      (((r.maxIndex box).1 < 0 ∨ (r.maxIndex box).2 < 0) ∨
      ((r.bounds.image.rows : Int) ≤ (r.minIndex box).1 ∨ (r.bounds.image.cols : Int) ≤ (r.minIndex box).2))) ∨
    ((r.minIndex box).1 ≤ (r.maxIndex box).1 ∧ ((r.minIndex box).2 ≤ (r.maxIndex box).2 ∨ r.bounds.wraps = true) ∧
      0 ≤ (r.maxIndex box).1 ∧ 0 ≤ (r.maxIndex box).2 ∧ (r.minIndex box).1 < r.bounds.image.rows ∧
      (r.minIndex box).2 < r.bounds.image.cols ∧
      r.bounds.getUpdateType (r.minIndex box) (r.maxIndex box) (box.lo.depth - r.thresholdBack)
        (box.hi.depth + r.thresholdFront) = some t) := by
  unfold Intersector.determineUpdateType at h
  simp only [Bool.false_eq_true, if_false] at h
  split at h
  · rename_i hd
    simp only [Option.some.injEq] at h
    exact Or.inl ⟨h.symm, hd⟩
  · right
    change (if (r.maxIndex box).1 < (r.minIndex box).1 ∨
        (r.bounds.wraps = false ∧ (r.maxIndex box).2 < (r.minIndex box).2) then _ else _) = some t at h
    split at h
    · rename_i hw
      left
      refine ⟨hw, ?_⟩
      split at h
      · rename_i ho
        simp only [Option.some.injEq] at h
        exact Or.inr ⟨h.symm, ho⟩
      · simp only [Option.some.injEq] at h
        exact Or.inl h.symm
    · rename_i hw
      right
      push Not at hw
      have hw2 : (r.minIndex box).2 ≤ (r.maxIndex box).2 ∨ r.bounds.wraps = true := by
        cases hb : r.bounds.wraps with
        | true => exact Or.inr rfl
        | false => exact Or.inl (hw.2 hb)
      split at h
      · rename_i ho
        simp only [Option.some.injEq] at h
        exact Or.inl ⟨h.symm, hw.1, hw2, ho⟩
      · rename_i ho
        push Not at ho
        exact Or.inr ⟨hw.1, hw2, ho.1.1, ho.1.2, ho.2.1, ho.2.2, h⟩

/-- What the answer of `getUpdateType` says about the pixels read for a point of the box. -/
theorem getUpdateType_pixels (r : Intersector) (hr : r.Ok) (box : SensorBox) (hseam : SeamOk r box) (s : SensorCoordinates)
    (hs : box.Contains s) (t : UpdateType)
    (hx : (r.minIndex box).1 ≤ (r.maxIndex box).1) (hy : (r.minIndex box).2 ≤ (r.maxIndex box).2 ∨ r.bounds.wraps = true)
    (hx0 : 0 ≤ (r.maxIndex box).1) (hy0 : 0 ≤ (r.maxIndex box).2) (hx1 : (r.minIndex box).1 < r.bounds.image.rows)
    (hy1 : (r.minIndex box).2 < r.bounds.image.cols)
    (h : r.bounds.getUpdateType (r.minIndex box) (r.maxIndex box) (box.lo.depth - r.thresholdBack)
        (box.hi.depth + r.thresholdFront) = some t) (i : Idx2) (hi : Consulted r.grid s i) :
    (t = .fullyUnobserved → ∀ v, r.bounds.image.at i = some v → v ≤ 0 ∨ r.minRange ≤ v → v + r.thresholdBack < s.depth) ∧
    (t = .freeOrUnobserved ∨ t = .fullyFree → ∀ v, r.bounds.image.at i = some v → r.minRange ≤ v →
      s.depth < v - r.thresholdFront) ∧
    (t = .fullyFree → (∀ v, r.bounds.image.at i = some v → r.minRange ≤ v) ∧
      (box.lo.v ≤ box.hi.v → (r.bounds.image.at i).isSome = true)) := by
  have hval := clamped_valid r.bounds _ _ hx hx0 hx1 hy0 hy1 hy hr.size
  have hord : max (r.minIndex box).2 0 ≤ min (r.maxIndex box).2 ((r.bounds.image.cols : Int) - 1) ↔
      (r.minIndex box).2 ≤ (r.maxIndex box).2 := by
    have := hr.size.2.2.1
    omega
  obtain ⟨lower, upper, mask, hl, hu, hm, hpix⟩ := C40_conservative_partial r.bounds hr.constructed hr.size _ _ hval
    (by
      by_cases hle : (r.minIndex box).2 ≤ (r.maxIndex box).2
      · exact Or.inl (hord.2 hle)
      · exact Or.inr (hr.pow (hy.resolve_left hle)))
  obtain ⟨c1, c2, c3⟩ := consulted_interval r hr box hseam s hs i hi
  -- every pixel that is read and inside the image lies in the clamped interval
  have hin : ∀ v, r.bounds.image.at i = some v → PixelIn r.bounds (max (r.minIndex box).1 0, max (r.minIndex box).2 0)
      (min (r.maxIndex box).1 ((r.bounds.image.rows : Int) - 1), min (r.maxIndex box).2 ((r.bounds.image.cols : Int) - 1)) i := by
    intro v hv
    obtain ⟨⟨b1, b2, b3, b4⟩, _⟩ := image_at_some _ _ _ hv
    refine ⟨by simp only; omega, by simp only; omega, b3, b4, ?_⟩
    dsimp only
    split at c3
    · rw [if_neg (by rw [hord]; omega)]; omega
    · rw [if_pos (by rw [hord]; omega)]; omega
  obtain ⟨_, _, d1, d2, _⟩ := hs
  unfold RangeBounds.getUpdateType at h
  dsimp only at h
  rw [hl, hu] at h
  simp only [Option.bind_eq_bind, Option.bind_some, Option.pure_def] at h
  rw [← hr.minRange]
  by_cases hup : upper < box.lo.depth - r.thresholdBack
  · rw [if_pos hup] at h
    simp only [Option.some.injEq] at h
    subst h
    refine ⟨fun _ v hv hok => ?_, fun h => by simp at h, fun h => by cases h⟩
    obtain ⟨p1, _, p3⟩ := hpix i v (hin v hv) hv
    have : v ≤ upper := by
      rcases le_or_gt r.bounds.minRange v with hge | hlt
      · exact (p1 hge).2
      · rcases hok with h0 | h0
        · exact p3 hlt h0
        · exact absurd h0 (not_le.2 hlt)
    linarith
  · rw [if_neg hup] at h
    by_cases hlo : box.hi.depth + r.thresholdFront < lower
    · rw [if_pos hlo] at h
      have hfree : ∀ v, r.bounds.image.at i = some v → r.bounds.minRange ≤ v → s.depth < v - r.thresholdFront := by
        intro v hv hge
        have := ((hpix i v (hin v hv) hv).1 hge).1
        linarith
      by_cases hcl : (r.minIndex box) ≠ (max (r.minIndex box).1 0, max (r.minIndex box).2 0) ∨ (r.maxIndex box) ≠
          (min (r.maxIndex box).1 ((r.bounds.image.rows : Int) - 1), min (r.maxIndex box).2 ((r.bounds.image.cols : Int) - 1))
      · rw [if_pos hcl] at h
        simp only [Option.some.injEq] at h
        subst h
        exact ⟨(by intro h; cases h), fun _ => hfree, (by intro h; cases h)⟩
      · rw [if_neg hcl, hm] at h
        push Not at hcl
        cases mask with
        | true =>
          simp only [Option.bind_some, if_true, Option.some.injEq] at h
          subst h
          exact ⟨(by intro h; cases h), fun _ => hfree, (by intro h; cases h)⟩
        | false =>
          simp only [Option.bind_some, Bool.false_eq_true, if_false, Option.some.injEq] at h
          subst h
          refine ⟨(by intro h; cases h), fun _ => hfree, fun _ => ⟨?_, ?_⟩⟩
          · intro v hv
            by_contra hlt
            exact absurd ((hpix i v (hin v hv) hv).2.1 (not_le.1 hlt)) (by decide)
          · intro hnw
            rw [if_neg (not_lt.2 hnw)] at c3
            have e1 : (r.minIndex box).1 = max (r.minIndex box).1 0 := congrArg Prod.fst hcl.1
            have e2 : (r.minIndex box).2 = max (r.minIndex box).2 0 := congrArg Prod.snd hcl.1
            have e3 : (r.maxIndex box).1 = min (r.maxIndex box).1 ((r.bounds.image.rows : Int) - 1) := congrArg Prod.fst hcl.2
            have e4 : (r.maxIndex box).2 = min (r.maxIndex box).2 ((r.bounds.image.cols : Int) - 1) := congrArg Prod.snd hcl.2
            rw [image_at]
            · rfl
            · omega
    · rw [if_neg hlo] at h
      simp only [Option.some.injEq] at h
      subst h
      exact ⟨(by intro h; cases h), fun h => by simp at h, (by intro h; cases h)⟩

/-! ## Property: what the three skipping answers guarantee about the pixels a point is updated from -/

/-- If a cell is declared fully unobserved, then for every point of it either its depth is outside the update range, or
every pixel its update would be computed from is outside the image or has a measurement so close that the point is behind
its back threshold. `_partial`: pixels strictly between zero and the minimum range break it (`C41_close_pixel_fails`), and so
do boxes that touch the seam from behind (`C41_seam_fails`). -/
theorem C41_unobserved_partial (r : Intersector) (hr : r.Ok) (hpx : PixelsOk r.bounds.image r.minRange) (box : SensorBox)
    (hseam : SeamOk r box) (h : r.determineUpdateType false box = some .fullyUnobserved) (s : SensorCoordinates)
    (hs : box.Contains s) :
    s.depth < r.minRange ∨ r.maxRange < s.depth ∨
      ∀ i, Consulted r.grid s i → ∀ v, r.bounds.image.at i = some v → v + r.thresholdBack < s.depth := by
  have hd := hs.2.2
  rcases determine_query r box _ h with ⟨_, h1⟩ | ⟨hw, h1⟩ | ⟨_, hx, hy, h1⟩ | ⟨hx, hy, hx0, hy0, hx1, hy1, hq⟩
  · rcases h1 with h1 | h1
    · exact Or.inr (Or.inl (by linarith [hd.1]))
    · exact Or.inl (by linarith [hd.2.1])
  · refine Or.inr (Or.inr fun i hi v hv => ?_)
    obtain ⟨c1, c2, c3⟩ := consulted_interval r hr box hseam s hs i hi
    obtain ⟨⟨b1, b2, b3, b4⟩, _⟩ := image_at_some _ _ _ hv
    exfalso
    rcases h1 with h1 | ⟨_, hx, hy⟩
    · cases h1
    · rcases hw with hw | ⟨hwf, hw⟩
      · omega
      · rcases hy with hy | hy | hy
        · rw [hwf] at hy; cases hy
        · exact hy hw
        · split at c3 <;> omega
  · refine Or.inr (Or.inr fun i hi v hv => ?_)
    obtain ⟨c1, c2, c3⟩ := consulted_interval r hr box hseam s hs i hi
    obtain ⟨⟨b1, b2, b3, b4⟩, _⟩ := image_at_some _ _ _ hv
    exfalso
    by_cases hwr : box.hi.v < box.lo.v
    · obtain ⟨e1, e2⟩ := hseam hwr
      rcases hy with hy | hy
      · omega
      · have := e2 hy
        omega
    · rw [if_neg hwr] at c3
      omega
  · refine Or.inr (Or.inr fun i hi v hv => ?_)
    exact (getUpdateType_pixels r hr box hseam s hs _ hx hy hx0 hy0 hx1 hy1 hq i hi).1 rfl v hv (hpx i v hv)

/-- If a cell is declared fully free, then for every point of it every pixel its update is computed from that lies inside
the image measured a surface beyond the point by more than the front threshold, and (unless the box runs through the seam)
all of these pixels lie inside the image. -/
theorem C41_free (r : Intersector) (hr : r.Ok) (box : SensorBox) (hseam : SeamOk r box)
    (h : r.determineUpdateType false box = some .fullyFree) (s : SensorCoordinates) (hs : box.Contains s) (i : Idx2)
    (hi : Consulted r.grid s i) :
    (∀ v, r.bounds.image.at i = some v → r.minRange ≤ v ∧ s.depth < v - r.thresholdFront) ∧
    (box.lo.v ≤ box.hi.v → (r.bounds.image.at i).isSome = true) := by
  rcases determine_query r box _ h with ⟨h1, _⟩ | ⟨_, h1⟩ | ⟨h1, _⟩ | ⟨hx, hy, hx0, hy0, hx1, hy1, hq⟩
  · cases h1
  · rcases h1 with h1 | ⟨h1, _⟩ <;> cases h1
  · cases h1
  · obtain ⟨_, p2, p3⟩ := getUpdateType_pixels r hr box hseam s hs _ hx hy hx0 hy0 hx1 hy1 hq i hi
    exact ⟨fun v hv => ⟨(p3 rfl).1 v hv, p2 (Or.inr rfl) v hv ((p3 rfl).1 v hv)⟩, (p3 rfl).2⟩

/-- If a cell is declared free or unobserved, then every observed pixel that a point of it is updated from measured a
surface beyond the point by more than the front threshold. -/
theorem C41_free_or_unobserved (r : Intersector) (hr : r.Ok) (box : SensorBox) (hseam : SeamOk r box)
    (h : r.determineUpdateType false box = some .freeOrUnobserved) (s : SensorCoordinates) (hs : box.Contains s) (i : Idx2)
    (hi : Consulted r.grid s i) (v : ℝ) (hv : r.bounds.image.at i = some v) (hobs : r.minRange ≤ v) :
    s.depth < v - r.thresholdFront := by
  rcases determine_query r box _ h with ⟨h1, _⟩ | ⟨_, h1⟩ | ⟨h1, _⟩ | ⟨hx, hy, hx0, hy0, hx1, hy1, hq⟩
  · cases h1
  · rcases h1 with h1 | ⟨h1, _⟩ <;> cases h1
  · cases h1
  · exact (getUpdateType_pixels r hr box hseam s hs _ hx hy hx0 hy0 hx1 hy1 hq i hi).2.1 (Or.inl rfl) v hv hobs

theorem getUpdateType_isSome (b : RangeBounds) (hc : Constructed b) (hsz : SizeOk b.image)
    (hp : b.wraps = true → ∃ m, b.image.cols = 2 ^ m) (mn mx : Idx2) (hx : mn.1 ≤ mx.1) (hx0 : 0 ≤ mx.1)
    (hx1 : mn.1 < b.image.rows) (hy0 : 0 ≤ mx.2) (hy1 : mn.2 < b.image.cols) (hy : mn.2 ≤ mx.2 ∨ b.wraps = true)
    (x y : ℝ) : (b.getUpdateType mn mx x y).isSome = true := by
  obtain ⟨lower, upper, mask, hl, hu, hm, _⟩ := C40_conservative_partial b hc hsz _ _
    (clamped_valid b mn mx hx hx0 hx1 hy0 hy1 hy hsz)
    (by
      by_cases hle : mn.2 ≤ mx.2
      · left; have := hsz.2.2.1; simp only; omega
      · exact Or.inr (hp (hy.resolve_left hle)))
  unfold RangeBounds.getUpdateType
  dsimp only
  rw [hl, hu, hm]
  simp only [Option.bind_eq_bind, Option.bind_some, Option.pure_def]
  split
  · rfl
  split
  · split
    · rfl
    · split <;> rfl
  · rfl

/-- The intersector always answers: no access outside the image or the pyramid, for every box. -/
theorem C41_defined (r : Intersector) (hr : r.Ok) (box : SensorBox) (containsSensor : Bool) :
    (r.determineUpdateType containsSensor box).isSome = true := by
  unfold Intersector.determineUpdateType
  split
  · rfl
  split
  · rfl
  change ((if (r.maxIndex box).1 < (r.minIndex box).1 ∨
        (r.bounds.wraps = false ∧ (r.maxIndex box).2 < (r.minIndex box).2) then _ else _) : Option UpdateType).isSome = true
  split
  · dsimp only
    split <;> rfl
  · rename_i hw
    push Not at hw
    split
    · rfl
    · rename_i ho
      change ¬ (((r.maxIndex box).1 < 0 ∨ (r.maxIndex box).2 < 0) ∨
        ((r.bounds.image.rows : Int) ≤ (r.minIndex box).1 ∨ (r.bounds.image.cols : Int) ≤ (r.minIndex box).2)) at ho
      push Not at ho
      have hw2 : (r.minIndex box).2 ≤ (r.maxIndex box).2 ∨ r.bounds.wraps = true := by
        cases hb : r.bounds.wraps with
        | true => exact Or.inr rfl
        | false => exact Or.inl (hw.2 hb)
      exact getUpdateType_isSome r.bounds hr.constructed hr.size hr.pow _ _ hw.1 ho.1.1 ho.2.1 ho.1.2 ho.2.2 hw2 _ _


/-! ## Property: what skipping a cell means for the update of its points

For both measurement models, with the thresholds each passes to the intersector. -/

/-- Number of beams an update sums over. -/
def BeamSelector.beams : BeamSelector → ℝ
  | .nearestNeighbor => 1
  | .allNeighbors => 4

theorem ray_update_const (c : ContinuousRayConfig) (g : ImageGrid) (im : Image ℝ) (s : SensorCoordinates) (a : ℝ)
    (h : ∀ i, Consulted g s i → c.beamUpdate im s.depth i = some a) :
    c.computeUpdate g im s = some (c.beamSelector.beams * a) := by
  unfold ContinuousRayConfig.computeUpdate
  cases c.beamSelector with
  | nearestNeighbor => simp only [BeamSelector.beams, one_mul]; exact h _ (consulted_nearest g s)
  | allNeighbors =>
    have e : (g.nearestIndices s.u s.v).map (c.beamUpdate im s.depth) = [some a, some a, some a, some a] := by
      have := fun i hi => h i (consulted_nearestIndices g s i hi)
      unfold ImageGrid.nearestIndices at this ⊢
      simp only [List.mem_cons, List.not_mem_nil, or_false, forall_eq_or_imp, forall_eq] at this
      simp only [List.map_cons, List.map_nil, this.1, this.2.1, this.2.2.1, this.2.2.2]
    simp only [BeamSelector.beams]
    rw [e, sumUpdates_four]
    congr 1; ring

theorem ray_update_nonpos (c : ContinuousRayConfig) (g : ImageGrid) (im : Image ℝ) (s : SensorCoordinates)
    (h : ∀ i, Consulted g s i → ∃ u, c.beamUpdate im s.depth i = some u ∧ u ≤ 0) :
    ∃ u, c.computeUpdate g im s = some u ∧ u ≤ 0 := by
  unfold ContinuousRayConfig.computeUpdate
  cases c.beamSelector with
  | nearestNeighbor => exact h _ (consulted_nearest g s)
  | allNeighbors =>
    have := fun i hi => h i (consulted_nearestIndices g s i hi)
    unfold ImageGrid.nearestIndices at this ⊢
    simp only [List.mem_cons, List.not_mem_nil, or_false, forall_eq_or_imp, forall_eq] at this
    obtain ⟨⟨a, ha, ha'⟩, ⟨b, hb, hb'⟩, ⟨x, hx, hx'⟩, ⟨d, hd, hd'⟩⟩ := this
    simp only [List.map_cons, List.map_nil]
    rw [ha, hb, hx, hd, sumUpdates_four]
    exact ⟨_, rfl, by linarith⟩

/-- Continuous ray: skipping a fully unobserved cell loses nothing, since the update of each of its points is zero.
`_partial` as `C41_unobserved_partial`. -/
theorem C41_ray_unobserved_partial (bounds : RangeBounds) (g : ImageGrid) (cfg : ProjectiveIntegratorConfig)
    (c : ContinuousRayConfig) (hr : (rayIntersector bounds g cfg c).Ok) (hpx : PixelsOk bounds.image cfg.minRange)
    (box : SensorBox) (hseam : SeamOk (rayIntersector bounds g cfg c) box)
    (h : (rayIntersector bounds g cfg c).determineUpdateType false box = some .fullyUnobserved) (s : SensorCoordinates)
    (hs : box.Contains s) : projectiveUpdate cfg (c.computeUpdate g bounds.image) s = some 0 := by
  unfold projectiveUpdate
  rcases C41_unobserved_partial _ hr hpx box hseam h s hs with h1 | h1 | h1
  · exact if_pos (Or.inl h1)
  · exact if_pos (Or.inr h1)
  · split
    · rfl
    · have := ray_update_const c g bounds.image s 0 (fun i hi => by
        unfold ContinuousRayConfig.beamUpdate
        cases him : bounds.image.at i with
        | none => rfl
        | some v =>
          have := h1 i hi v him
          simp only [ContinuousRayConfig.distanceUpdate]
          rw [if_pos]
          change v + c.thresholdBack < s.depth at this
          linarith)
      rw [this, mul_zero]

/-- Continuous ray: inside a fully free cell (not through the seam), every point in the update range gets exactly the
free-space update. So one update for the whole cell is exact. -/
theorem C41_ray_free_partial (bounds : RangeBounds) (g : ImageGrid) (cfg : ProjectiveIntegratorConfig)
    (c : ContinuousRayConfig) (hc : c.Scaled) (hr : (rayIntersector bounds g cfg c).Ok) (box : SensorBox)
    (hnw : box.lo.v ≤ box.hi.v)
    (h : (rayIntersector bounds g cfg c).determineUpdateType false box = some .fullyFree) (s : SensorCoordinates)
    (hs : box.Contains s) (hd0 : cfg.minRange ≤ s.depth) (hd1 : s.depth ≤ cfg.maxRange) :
    projectiveUpdate cfg (c.computeUpdate g bounds.image) s = some (c.beamSelector.beams * c.freeLogOdds) := by
  unfold projectiveUpdate
  rw [if_neg (by push Not; exact ⟨hd0, hd1⟩)]
  apply ray_update_const
  intro i hi
  obtain ⟨p1, p2⟩ := C41_free _ hr box (fun hw => absurd hw (not_lt.2 hnw)) h s hs i hi
  obtain ⟨v, hv⟩ := Option.isSome_iff_exists.1 (p2 hnw)
  change bounds.image.at i = some v at hv
  obtain ⟨q1, q2⟩ := p1 v hv
  change s.depth < v - c.thresholdFront at q2
  obtain ⟨u, hu, _, _, _, huf⟩ := C42_ray_beam_partial c hc s.depth v
  unfold ContinuousRayConfig.beamUpdate
  rw [hv]
  simp only
  rw [hu, huf q2.le]

/-- Continuous ray: no point of a cell declared fully free, or free or unobserved, gets a positive update. `_partial`: a
missing return counts as a measurement at range zero, so this needs `6 * range_sigma ≤ min_range`
(`C41_missing_return_fails`). -/
theorem C41_ray_nonpositive_partial (bounds : RangeBounds) (g : ImageGrid) (cfg : ProjectiveIntegratorConfig)
    (c : ContinuousRayConfig) (hc : c.Scaled) (hσ : 6 * c.rangeSigma ≤ cfg.minRange)
    (hr : (rayIntersector bounds g cfg c).Ok) (hpx : PixelsOk bounds.image cfg.minRange)
    (box : SensorBox) (hseam : SeamOk (rayIntersector bounds g cfg c) box)
    (t : UpdateType) (ht : t = .freeOrUnobserved ∨ t = .fullyFree)
    (h : (rayIntersector bounds g cfg c).determineUpdateType false box = some t) (s : SensorCoordinates)
    (hs : box.Contains s) : ∃ u, projectiveUpdate cfg (c.computeUpdate g bounds.image) s = some u ∧ u ≤ 0 := by
  unfold projectiveUpdate
  split
  · exact ⟨0, rfl, le_refl _⟩
  · rename_i hd
    push Not at hd
    apply ray_update_nonpos
    intro i hi
    unfold ContinuousRayConfig.beamUpdate
    cases him : bounds.image.at i with
    | none => exact ⟨0, rfl, le_refl _⟩
    | some v =>
      simp only
      obtain ⟨u, hu, _, _, hpos, _⟩ := C42_ray_beam_partial c hc s.depth v
      refine ⟨u, hu, ?_⟩
      by_contra hgt
      obtain ⟨g1, g2⟩ := hpos.1 (not_le.1 hgt)
      have hσ0 := hc.1.1
      rcases hpx i v him with h0 | h0
      · linarith [hd.1]
      · have : s.depth < v - c.thresholdFront := by
          rcases ht with rfl | rfl
          · exact C41_free_or_unobserved _ hr box hseam h s hs i hi v him h0
          · exact ((C41_free _ hr box hseam h s hs i hi).1 v him).2
        unfold ContinuousRayConfig.thresholdFront at this
        linarith

/-- The squared angular error of a projector is not negative. -/
def ErrOk (errSq : ℝ × ℝ → ℝ × ℝ → ℝ) : Prop := ∀ a b, 0 ≤ errSq a b

/-- The updates of the beams around a point, for the beam model. -/
theorem beam_update_cases (c : ContinuousBeamConfig) (hc : c.Scaled) (g : ImageGrid) (errSq : ℝ × ℝ → ℝ × ℝ → ℝ)
    (herr : ErrOk errSq) (im : Image ℝ) (offs : Image (ℝ × ℝ)) (s : SensorCoordinates) (hd : 6 * c.rangeSigma ≤ s.depth)
    (P : ℝ → Prop) (h0 : P 0) (hadd : ∀ a b, P a → P b → P (a + b))
    (h : ∀ i, Consulted g s i → ∀ v, im.at i = some v → ∀ e, 0 ≤ e → ∃ u, c.beamUpdate s.depth e v = some u ∧ P u) :
    ∃ u, c.computeUpdate g errSq im offs s = some u ∧ P u := by
  have hzero : ∀ e, 0 ≤ e → c.beamUpdate s.depth e 0 = some 0 := by
    intro e he
    obtain ⟨u, hu, _, hn, hp⟩ := C42_beam_partial c hc s.depth e 0 he
    have hσ : 0 < c.rangeSigma := hc.1.2.1
    have : u = 0 := by
      rcases lt_trichotomy u 0 with hlt | heq | hgt
      · linarith [(hn.1 hlt).2]
      · exact heq
      · linarith [(hp.1 hgt).2.2]
    rw [hu, this]
  unfold ContinuousBeamConfig.computeUpdate
  cases c.beamSelector with
  | nearestNeighbor =>
    simp only [ImageGrid.nearestIndexAndOffset]
    cases him : im.at (g.nearestIndex s.u s.v) with
    | none => exact ⟨0, rfl, h0⟩
    | some v =>
      cases hoff : offs.at (g.nearestIndex s.u s.v) with
      | none => exact ⟨0, rfl, h0⟩
      | some o => exact h _ (consulted_nearest g s) v him _ (herr _ _)
  | allNeighbors =>
    simp only [ImageGrid.nearestIndicesAndOffsets, List.map_map]
    have key : ∀ i, Consulted g s i → ∃ u, ((fun io : Idx2 × (ℝ × ℝ) => match im.at io.1, offs.at io.1 with
          | some measured, some off => c.beamUpdate s.depth (errSq (s.u, s.v) (io.2.1 - off.1, io.2.2 - off.2)) measured
          | _, _ => c.beamUpdate s.depth (errSq (s.u, s.v) io.2) 0) ∘
        fun i : Idx2 => (i, (g.scaleU * ((i.1 : ℝ) - g.indexRealU s.u), g.scaleV * ((i.2 : ℝ) - g.indexRealV s.v)))) i
          = some u ∧ P u := by
      intro i hi
      simp only [Function.comp]
      cases him : im.at i with
      | none => exact ⟨0, hzero _ (herr _ _), h0⟩
      | some v =>
        cases hoff : offs.at i with
        | none => exact ⟨0, hzero _ (herr _ _), h0⟩
        | some o => exact h i hi v him _ (herr _ _)
    generalize ((fun io : Idx2 × (ℝ × ℝ) => match im.at io.1, offs.at io.1 with
          | some measured, some off => c.beamUpdate s.depth (errSq (s.u, s.v) (io.2.1 - off.1, io.2.2 - off.2)) measured
          | _, _ => c.beamUpdate s.depth (errSq (s.u, s.v) io.2) 0) ∘
        fun i : Idx2 => (i, (g.scaleU * ((i.1 : ℝ) - g.indexRealU s.u), g.scaleV * ((i.2 : ℝ) - g.indexRealV s.v)))) = f
      at key ⊢
    have := fun i hi => key i (consulted_nearestIndices g s i hi)
    unfold ImageGrid.nearestIndices at this ⊢
    simp only [List.mem_cons, List.not_mem_nil, or_false, forall_eq_or_imp, forall_eq] at this
    obtain ⟨⟨a, ha, ha'⟩, ⟨b, hb, hb'⟩, ⟨x, hx, hx'⟩, ⟨d, hd, hd'⟩⟩ := this
    simp only [List.map_cons, List.map_nil]
    rw [ha, hb, hx, hd, sumUpdates_four]
    exact ⟨_, rfl, hadd _ _ (hadd _ _ (hadd _ _ ha' hb') hx') hd'⟩

/-- Continuous beam: skipping a fully unobserved cell loses nothing. `_partial`: as for the ray model, and neighbours
outside the image act as measurements at range zero, so this needs `6 * range_sigma ≤ min_range`. -/
theorem C41_beam_unobserved_partial (bounds : RangeBounds) (g : ImageGrid) (errSq : ℝ × ℝ → ℝ × ℝ → ℝ)
    (herr : ErrOk errSq) (offs : Image (ℝ × ℝ)) (cfg : ProjectiveIntegratorConfig)
    (c : ContinuousBeamConfig) (hc : c.Scaled) (hσ : 6 * c.rangeSigma ≤ cfg.minRange)
    (hr : (beamIntersector bounds g cfg c).Ok) (hpx : PixelsOk bounds.image cfg.minRange)
    (box : SensorBox) (hseam : SeamOk (beamIntersector bounds g cfg c) box)
    (h : (beamIntersector bounds g cfg c).determineUpdateType false box = some .fullyUnobserved) (s : SensorCoordinates)
    (hs : box.Contains s) : projectiveUpdate cfg (c.computeUpdate g errSq bounds.image offs) s = some 0 := by
  unfold projectiveUpdate
  rcases C41_unobserved_partial _ hr hpx box hseam h s hs with h1 | h1 | h1
  · exact if_pos (Or.inl h1)
  · exact if_pos (Or.inr h1)
  · split
    · rfl
    · rename_i hd
      push Not at hd
      obtain ⟨u, hu, rfl⟩ := beam_update_cases c hc g errSq herr bounds.image offs s (hσ.trans hd.1) (fun u => u = 0) rfl
        (fun a b ha hb => by rw [ha, hb, add_zero]) (fun i hi v hv e _ => ⟨0, by
          have := h1 i hi v hv
          unfold ContinuousBeamConfig.beamUpdate
          exact if_pos (Or.inr this), rfl⟩)
      exact hu

/-- Continuous beam: no point of a cell declared fully free, or free or unobserved, gets a positive update. `_partial` as
for the ray model. -/
theorem C41_beam_nonpositive_partial (bounds : RangeBounds) (g : ImageGrid) (errSq : ℝ × ℝ → ℝ × ℝ → ℝ)
    (herr : ErrOk errSq) (offs : Image (ℝ × ℝ)) (cfg : ProjectiveIntegratorConfig)
    (c : ContinuousBeamConfig) (hc : c.Scaled) (hσ : 6 * c.rangeSigma ≤ cfg.minRange)
    (hr : (beamIntersector bounds g cfg c).Ok) (hpx : PixelsOk bounds.image cfg.minRange)
    (box : SensorBox) (hseam : SeamOk (beamIntersector bounds g cfg c) box)
    (t : UpdateType) (ht : t = .freeOrUnobserved ∨ t = .fullyFree)
    (h : (beamIntersector bounds g cfg c).determineUpdateType false box = some t) (s : SensorCoordinates)
    (hs : box.Contains s) :
    ∃ u, projectiveUpdate cfg (c.computeUpdate g errSq bounds.image offs) s = some u ∧ u ≤ 0 := by
  unfold projectiveUpdate
  split
  · exact ⟨0, rfl, le_refl _⟩
  · rename_i hd
    push Not at hd
    refine beam_update_cases c hc g errSq herr bounds.image offs s (hσ.trans hd.1) (fun u => u ≤ 0) (le_refl _)
      (fun a b ha hb => by linarith) (fun i hi v hv e he => ?_)
    obtain ⟨u, hu, _, _, hpos⟩ := C42_beam_partial c hc s.depth e v he
    refine ⟨u, hu, ?_⟩
    by_contra hgt
    obtain ⟨_, g1, g2⟩ := hpos.1 (not_le.1 hgt)
    have hσ0 : 0 < c.rangeSigma := hc.1.2.1
    rcases hpx i v hv with h0 | h0
    · linarith [hd.1]
    · have : s.depth < v - c.thresholdFront := by
        rcases ht with rfl | rfl
        · exact C41_free_or_unobserved _ hr box hseam h s hs i hi v hv h0
        · exact ((C41_free _ hr box hseam h s hs i hi).1 v hv).2
      unfold ContinuousBeamConfig.thresholdFront at this
      linarith


/-! ## Examples and counterexamples -/

/-- A one-pixel sensor. -/
noncomputable def singleRange (v minRange : ℝ) : RangeBounds := ⟨⟨1, 1, fun _ _ => v⟩, false, minRange, 1, 1⟩
/-- Its pixel grid. -/
noncomputable def onePixelGrid : ImageGrid := ⟨1, 1, 0, 0⟩
/-- A cell on the axis of the pixel, from depth `a` to depth `b`. -/
noncomputable def onAxis (a b : ℝ) : SensorBox := ⟨⟨0, 0, a⟩, ⟨0, 0, b⟩⟩

theorem constructed_of (h : RangeBounds) (hsz : SizeOk h.image) (hx : h.sx = 1) (hy : h.sy = 1) : Constructed h := by
  obtain ⟨im, w, mr, sx, sy⟩ := h
  simp only at hx hy hsz
  subst hx hy
  have hh := C40_constructor 1 1 (by norm_num) (by norm_num) im hsz w mr
  have e : RangeBounds.scaleFactor 1 1 = (1, 1) := by
    unfold RangeBounds.scaleFactor; norm_num
  rw [e] at hh
  refine ⟨im, w, mr, (1, 1), ?_⟩
  unfold RangeBounds.create at hh ⊢
  rw [if_pos (by decide)] at hh ⊢
  dsimp only at hh ⊢
  split
  · rfl
  · rename_i hn; rw [if_neg hn] at hh; cases hh

theorem singleRange_ok (v : ℝ) (cfg : ProjectiveIntegratorConfig) (c : ContinuousRayConfig) :
    (rayIntersector (singleRange v cfg.minRange) onePixelGrid cfg c).Ok := by
  have hsz : SizeOk (singleRange v cfg.minRange).image := ⟨Nat.one_pos, by show 1 < 2 ^ 29; decide, Nat.one_pos, by show 1 < 2 ^ 29; decide⟩
  refine ⟨constructed_of _ hsz rfl rfl, hsz, rfl, one_pos, one_pos, le_refl _, fun h => by cases h⟩

theorem singleRange_answer (v : ℝ) (cfg : ProjectiveIntegratorConfig) (c : ContinuousRayConfig) (a b : ℝ)
    (ha : a ≤ cfg.maxRange) (hb : cfg.minRange ≤ b) :
    (rayIntersector (singleRange v cfg.minRange) onePixelGrid cfg c).determineUpdateType false (onAxis a b) = some
      (if (if v < cfg.minRange then 0 else v) < a - c.thresholdBack then .fullyUnobserved
       else if b + c.thresholdFront < (if v < cfg.minRange then 10000 else v) then
         if v < cfg.minRange then .freeOrUnobserved else .fullyFree
       else .possiblyOccupied) := by
  have hsz : SizeOk (singleRange v cfg.minRange).image := ⟨Nat.one_pos, by show 1 < 2 ^ 29; decide, Nat.one_pos, by show 1 < 2 ^ 29; decide⟩
  obtain ⟨_, _, ⟨l, hl⟩, ⟨u, hu⟩, ⟨m, hm⟩⟩ := constructed_props (constructed_of _ hsz rfl rfl)
  unfold Intersector.determineUpdateType
  simp only [Bool.false_eq_true, if_false]
  rw [if_neg (by push Not; exact ⟨ha, hb⟩)]
  have e1 : (rayIntersector (singleRange v cfg.minRange) onePixelGrid cfg c).grid.floorIndex
      ((onAxis a b).lo.u - (rayIntersector (singleRange v cfg.minRange) onePixelGrid cfg c).angleThreshold)
      ((onAxis a b).lo.v - (rayIntersector (singleRange v cfg.minRange) onePixelGrid cfg c).angleThreshold) = (0, 0) := by
    simp [rayIntersector, onePixelGrid, onAxis, ImageGrid.floorIndex, ImageGrid.indexRealU, ImageGrid.indexRealV]
  have e2 : (rayIntersector (singleRange v cfg.minRange) onePixelGrid cfg c).grid.ceilIndex
      ((onAxis a b).hi.u + (rayIntersector (singleRange v cfg.minRange) onePixelGrid cfg c).angleThreshold)
      ((onAxis a b).hi.v + (rayIntersector (singleRange v cfg.minRange) onePixelGrid cfg c).angleThreshold) = (0, 0) := by
    simp [rayIntersector, onePixelGrid, onAxis, ImageGrid.ceilIndex, ImageGrid.indexRealU, ImageGrid.indexRealV]
  rw [e1, e2]
  have e3 : (rayIntersector (singleRange v cfg.minRange) onePixelGrid cfg c).bounds = singleRange v cfg.minRange := rfl
  rw [e3]
  have e4 : ((singleRange v cfg.minRange).image.rows : Int) = 1 := rfl
  have e5 : ((singleRange v cfg.minRange).image.cols : Int) = 1 := rfl
  simp only [e4, e5]
  rw [if_neg (by rintro (h | ⟨_, h⟩) <;> exact absurd h (by decide)), if_neg (by decide)]
  unfold RangeBounds.getUpdateType RangeBounds.getLowerBound RangeBounds.getUpperBound RangeBounds.hasUnobserved
  rw [hl, hu, hm]
  simp only [e4, e5]
  have q : ∀ {α : Type} (f : α → α → α) (im : Image α) (ls : List (Image α)), intervalQuery (singleRange v cfg.minRange).wraps
      (singleRange v cfg.minRange).sx (singleRange v cfg.minRange).sy f im ls (max 0 0, max 0 0) (min 0 (1 - 1), min 0 (1 - 1))
        = im.at (0, 0) := fun f im ls => by
    unfold intervalQuery; rw [if_pos (by decide)]; rfl
  simp only [Option.bind_eq_bind, Option.bind_some, q]
  have a1 : (singleRange v cfg.minRange).lowerImage.at (0, 0) = some (if v < cfg.minRange then 10000 else v) := by
    rw [image_at _ _ (show (0 : Int) ≤ 0 ∧ (0 : Int) < ((1 : Nat) : Int) ∧ (0 : Int) ≤ 0 ∧ (0 : Int) < ((1 : Nat) : Int) by decide)]
    simp only [RangeBounds.lowerImage, Image.transform, RangeBounds.valueOrInit, RangeBounds.isUnobserved, singleRange,
      RangeBounds.unknownLower]
    by_cases hv : v < cfg.minRange <;> simp [hv]
  have a2 : (singleRange v cfg.minRange).upperImage.at (0, 0) = some (if v < cfg.minRange then 0 else v) := by
    rw [image_at _ _ (show (0 : Int) ≤ 0 ∧ (0 : Int) < ((1 : Nat) : Int) ∧ (0 : Int) ≤ 0 ∧ (0 : Int) < ((1 : Nat) : Int) by decide)]
    simp only [RangeBounds.upperImage, Image.transform, RangeBounds.valueOrInit, RangeBounds.isUnobserved, singleRange,
      RangeBounds.unknownUpper]
    by_cases hv : v < cfg.minRange <;> simp [hv]
  have a3 : (singleRange v cfg.minRange).maskImage.at (0, 0) = some (if v < cfg.minRange then true else false) := by
    rw [image_at _ _ (show (0 : Int) ≤ 0 ∧ (0 : Int) < ((1 : Nat) : Int) ∧ (0 : Int) ≤ 0 ∧ (0 : Int) < ((1 : Nat) : Int) by decide)]
    rfl
  rw [a1, a2, a3]
  simp only [Option.bind_some, Option.pure_def]
  have b1 : (onAxis a b).lo.depth = a := rfl
  have b2 : (onAxis a b).hi.depth = b := rfl
  have b3 : (rayIntersector (singleRange v cfg.minRange) onePixelGrid cfg c).thresholdBack = c.thresholdBack := rfl
  have b4 : (rayIntersector (singleRange v cfg.minRange) onePixelGrid cfg c).thresholdFront = c.thresholdFront := rfl
  rw [b1, b2, b3, b4]
  by_cases hv : v < cfg.minRange
  · simp only [if_pos hv]
    split
    · rfl
    · split
      · rw [if_neg (by decide)]; rfl
      · rfl
  · simp only [if_neg hv]
    split
    · rfl
    · split
      · rw [if_neg (by decide)]; rfl
      · rfl

theorem singleRange_update (v : ℝ) (cfg : ProjectiveIntegratorConfig) (c : ContinuousRayConfig)
    (hc : c.beamSelector = .nearestNeighbor) (d : ℝ) (h0 : cfg.minRange ≤ d) (h1 : d ≤ cfg.maxRange) :
    projectiveUpdate cfg (c.computeUpdate onePixelGrid (singleRange v cfg.minRange).image) ⟨0, 0, d⟩ =
      c.distanceUpdate d v := by
  unfold projectiveUpdate
  rw [if_neg (by push Not; exact ⟨h0, h1⟩)]
  unfold ContinuousRayConfig.computeUpdate
  rw [hc]
  simp only [ContinuousRayConfig.beamUpdate]
  have : onePixelGrid.nearestIndex 0 0 = (0, 0) := by
    simp [onePixelGrid, ImageGrid.nearestIndex, roundR, ImageGrid.indexRealU, ImageGrid.indexRealV]
    norm_num
  rw [this, image_at _ _
    (show (0 : Int) ≤ 0 ∧ (0 : Int) < ((1 : Nat) : Int) ∧ (0 : Int) ≤ 0 ∧ (0 : Int) < ((1 : Nat) : Int) by decide)]
  rfl

/-- A ray model with one centimetre of range noise. -/
noncomputable def exampleRay : ContinuousRayConfig := ⟨1 / 100, 1 / 5, 2 / 5, .nearestNeighbor⟩

theorem exampleRay_scaled : exampleRay.Scaled := by
  unfold ContinuousRayConfig.Scaled ContinuousRayConfig.Valid exampleRay
  norm_num

/-- The hypotheses of the theorems for free cells are met: a cell from 2 m to 3 m, seen by a pixel that measured 10 m. -/
example : projectiveUpdate ⟨1, 20, 0, 1⟩ (exampleRay.computeUpdate onePixelGrid (singleRange 10 1).image) ⟨0, 0, 5 / 2⟩
    = some (1 * exampleRay.freeLogOdds) := by
  refine C41_ray_free_partial (singleRange 10 1) onePixelGrid ⟨1, 20, 0, 1⟩ exampleRay exampleRay_scaled
    (singleRange_ok 10 ⟨1, 20, 0, 1⟩ exampleRay) (onAxis 2 3) (le_refl _) ?_ _ ?_ (by norm_num) (by norm_num)
  · rw [singleRange_answer 10 ⟨1, 20, 0, 1⟩ exampleRay 2 3 (by norm_num) (by norm_num)]
    norm_num [exampleRay, ContinuousRayConfig.thresholdBack, ContinuousRayConfig.thresholdFront]
  · unfold SensorBox.Contains onAxis; norm_num

/-- The hypotheses of the theorems for unobserved cells are met: a cell from 5 m to 6 m, behind a measurement at 2 m. -/
example : projectiveUpdate ⟨1, 20, 0, 1⟩ (exampleRay.computeUpdate onePixelGrid (singleRange 2 1).image) ⟨0, 0, 11 / 2⟩
    = some 0 := by
  refine C41_ray_unobserved_partial (singleRange 2 1) onePixelGrid ⟨1, 20, 0, 1⟩ exampleRay
    (singleRange_ok 2 ⟨1, 20, 0, 1⟩ exampleRay) ?_ (onAxis 5 6) (fun h => absurd h (lt_irrefl _)) ?_ _ ?_
  · intro i v hv
    obtain ⟨_, rfl⟩ := image_at_some _ _ _ hv
    right; show (1 : ℝ) ≤ 2; norm_num
  · rw [singleRange_answer 2 ⟨1, 20, 0, 1⟩ exampleRay 5 6 (by norm_num) (by norm_num)]
    norm_num [exampleRay, ContinuousRayConfig.thresholdBack, ContinuousRayConfig.thresholdFront]
  · unfold SensorBox.Contains onAxis; norm_num

/-- A measurement closer than the minimum range: the cell just behind it is declared fully unobserved, but its points get
a positive update. (Such pixels can reach the integrator: point cloud import keeps them, see `C43`.) -/
theorem C41_close_pixel_fails : ∃ (bounds : RangeBounds) (g : ImageGrid) (cfg : ProjectiveIntegratorConfig)
    (c : ContinuousRayConfig) (box : SensorBox) (s : SensorCoordinates) (u : ℝ), cfg.Valid ∧ c.Scaled ∧
    (rayIntersector bounds g cfg c).Ok ∧ SeamOk (rayIntersector bounds g cfg c) box ∧ box.Contains s ∧
    (rayIntersector bounds g cfg c).determineUpdateType false box = some .fullyUnobserved ∧
    projectiveUpdate cfg (c.computeUpdate g bounds.image) s = some u ∧ 0 < u := by
  obtain ⟨u, hu, _, _, hp, _⟩ := C42_ray_beam_partial exampleRay exampleRay_scaled (1 / 2) (49 / 100)
  refine ⟨singleRange (49 / 100) (1 / 2), onePixelGrid, ⟨1 / 2, 20, 0, 1⟩, exampleRay, onAxis (1 / 2) (3 / 5),
    ⟨0, 0, 1 / 2⟩, u, ?_, exampleRay_scaled, singleRange_ok _ ⟨1 / 2, 20, 0, 1⟩ _, fun h => absurd h (lt_irrefl _), ?_, ?_, ?_, ?_⟩
  · unfold ProjectiveIntegratorConfig.Valid; norm_num
  · unfold SensorBox.Contains onAxis; norm_num
  · rw [singleRange_answer (49 / 100) ⟨1 / 2, 20, 0, 1⟩ exampleRay _ _ (by norm_num) (by norm_num)]
    norm_num [exampleRay, ContinuousRayConfig.thresholdBack, ContinuousRayConfig.thresholdFront]
  · rw [singleRange_update (49 / 100) ⟨1 / 2, 20, 0, 1⟩ exampleRay rfl _ (by norm_num) (by norm_num), hu]
  · exact hp.2 (by unfold exampleRay; norm_num)

/-- A missing return counts as a measurement at range zero: with a large range noise, a cell declared free or unobserved
has points with a positive update. -/
theorem C41_missing_return_fails : ∃ (bounds : RangeBounds) (g : ImageGrid) (cfg : ProjectiveIntegratorConfig)
    (c : ContinuousRayConfig) (box : SensorBox) (s : SensorCoordinates) (u : ℝ), cfg.Valid ∧ c.Scaled ∧
    (rayIntersector bounds g cfg c).Ok ∧ PixelsOk bounds.image cfg.minRange ∧
    SeamOk (rayIntersector bounds g cfg c) box ∧ box.Contains s ∧
    (rayIntersector bounds g cfg c).determineUpdateType false box = some .freeOrUnobserved ∧
    projectiveUpdate cfg (c.computeUpdate g bounds.image) s = some u ∧ 0 < u := by
  let c : ContinuousRayConfig := ⟨1 / 10, 1 / 5, 2 / 5, .nearestNeighbor⟩
  have hc : c.Scaled := by
    unfold ContinuousRayConfig.Scaled ContinuousRayConfig.Valid
    norm_num [c]
  obtain ⟨u, hu, _, _, hp, _⟩ := C42_ray_beam_partial c hc (1 / 2) 0
  refine ⟨singleRange 0 (1 / 2), onePixelGrid, ⟨1 / 2, 20, 0, 1⟩, c, onAxis (1 / 2) (11 / 20),
    ⟨0, 0, 1 / 2⟩, u, ?_, hc, singleRange_ok _ ⟨1 / 2, 20, 0, 1⟩ _, ?_, fun h => absurd h (lt_irrefl _), ?_, ?_, ?_, ?_⟩
  · unfold ProjectiveIntegratorConfig.Valid; norm_num
  · intro i v hv
    obtain ⟨_, rfl⟩ := image_at_some _ _ _ hv
    exact Or.inl (le_refl _)
  · unfold SensorBox.Contains onAxis; norm_num
  · rw [singleRange_answer 0 ⟨1 / 2, 20, 0, 1⟩ c _ _ (by norm_num) (by norm_num)]
    norm_num [c, ContinuousRayConfig.thresholdBack, ContinuousRayConfig.thresholdFront]
  · rw [singleRange_update 0 ⟨1 / 2, 20, 0, 1⟩ c rfl _ (by norm_num) (by norm_num), hu]
  · exact hp.2 (by norm_num [c])

/-- A sensor with four columns around the full circle, the first at `-π`. A cell that touches the seam plane from the side
of the negative azimuths has a corner at azimuth `π`, so its box runs from `π` through the seam; the intersector declares it
fully unobserved, although a point of it gets a positive update. -/
theorem C41_seam_fails : ∃ (bounds : RangeBounds) (g : ImageGrid) (cfg : ProjectiveIntegratorConfig)
    (c : ContinuousRayConfig) (box : SensorBox) (s : SensorCoordinates) (u : ℝ), cfg.Valid ∧ c.Scaled ∧
    (rayIntersector bounds g cfg c).Ok ∧ PixelsOk bounds.image cfg.minRange ∧ box.lo.v = Real.pi ∧ box.Contains s ∧
    (rayIntersector bounds g cfg c).determineUpdateType false box = some .fullyUnobserved ∧
    projectiveUpdate cfg (c.computeUpdate g bounds.image) s = some u ∧ 0 < u := by
  let b : RangeBounds := ⟨⟨1, 4, fun _ _ => 5⟩, true, 1, 1, 1⟩
  let g : ImageGrid := ⟨1, Real.pi / 2, 0, -Real.pi⟩
  have hpi := Real.pi_pos
  have hsz : SizeOk b.image := by unfold SizeOk; decide
  obtain ⟨u, hu, _, _, hp, _⟩ := C42_ray_beam_partial exampleRay exampleRay_scaled (501 / 100) 5
  have i1 : g.indexRealV Real.pi = 4 := by
    simp only [ImageGrid.indexRealV, g]; field_simp; norm_num
  have i2 : g.indexRealV (-Real.pi / 2) = 1 := by
    simp only [ImageGrid.indexRealV, g]; field_simp; norm_num
  refine ⟨b, g, ⟨1, 20, 0, 1⟩, exampleRay, ⟨⟨0, Real.pi, 5⟩, ⟨0, -Real.pi / 2, 6⟩⟩, ⟨0, -Real.pi / 2, 501 / 100⟩, u, ?_,
    exampleRay_scaled, ⟨constructed_of _ hsz rfl rfl, hsz, rfl, one_pos, by simp only [rayIntersector, g]; positivity,
      le_refl _, fun _ => ⟨2, rfl⟩⟩, ?_, rfl, ?_, ?_, ?_, ?_⟩
  · unfold ProjectiveIntegratorConfig.Valid; norm_num
  · intro i v hv
    obtain ⟨_, rfl⟩ := image_at_some _ _ _ hv
    right; show (1 : ℝ) ≤ 5; norm_num
  · unfold SensorBox.Contains
    refine ⟨le_refl _, le_refl _, by norm_num, by norm_num, ?_⟩
    rw [if_pos (by show -Real.pi / 2 < Real.pi; linarith)]
    exact Or.inr (le_refl _)
  · unfold Intersector.determineUpdateType rayIntersector
    simp only [Bool.false_eq_true, if_false, sub_zero, add_zero, ImageGrid.floorIndex, ImageGrid.ceilIndex, i1, i2]
    have f1 : ⌊(4 : ℝ)⌋ = 4 := by norm_num
    have f2 : ⌈(1 : ℝ)⌉ = 1 := by norm_num
    have f3 : g.indexRealU 0 = 0 := by simp [ImageGrid.indexRealU, g]
    rw [f1, f2, f3, Int.floor_zero, Int.ceil_zero, if_neg (by norm_num), if_neg (by decide), if_pos (by decide)]
  · unfold projectiveUpdate
    rw [if_neg (by norm_num)]
    unfold ContinuousRayConfig.computeUpdate
    simp only [exampleRay]
    change exampleRay.beamUpdate _ _ _ = _
    unfold ContinuousRayConfig.beamUpdate
    have : g.nearestIndex 0 (-Real.pi / 2) = (0, 1) := by
      have f3 : g.indexRealU 0 = 0 := by simp [ImageGrid.indexRealU, g]
      unfold ImageGrid.nearestIndex
      rw [i2, f3]
      unfold roundR
      norm_num
    rw [this, image_at _ _ (by decide)]
    exact hu
  · exact hp.2 (by unfold exampleRay; norm_num)

/-- A beam model with one centimetre of range noise and an angular noise much smaller than a pixel. -/
noncomputable def exampleBeam : ContinuousBeamConfig := ⟨1 / 600, 1 / 100, 1 / 5, 2 / 5, .allNeighbors⟩

theorem exampleBeam_scaled : exampleBeam.Scaled := by
  unfold ContinuousBeamConfig.Scaled ContinuousBeamConfig.Valid exampleBeam
  norm_num

theorem singleRange_beam_ok (v : ℝ) (cfg : ProjectiveIntegratorConfig) :
    (beamIntersector (singleRange v cfg.minRange) onePixelGrid cfg exampleBeam).Ok := by
  have hsz : SizeOk (singleRange v cfg.minRange).image := ⟨Nat.one_pos, by show 1 < 2 ^ 29; decide, Nat.one_pos, by show 1 < 2 ^ 29; decide⟩
  refine ⟨constructed_of _ hsz rfl rfl, hsz, rfl, one_pos, one_pos, ?_, fun h => by cases h⟩
  show 0 ≤ exampleBeam.angleThreshold
  norm_num [ContinuousBeamConfig.angleThreshold, exampleBeam]

/-- The beam model pads the box with the pixels around the image, so no cell is reported as fully free. -/
theorem singleRange_beam_answer (v : ℝ) (cfg : ProjectiveIntegratorConfig) (a b : ℝ) (ha : a ≤ cfg.maxRange) (hb : cfg.minRange ≤ b) :
    (beamIntersector (singleRange v cfg.minRange) onePixelGrid cfg exampleBeam).determineUpdateType false (onAxis a b) = some
      (if (if v < cfg.minRange then 0 else v) < a - exampleBeam.thresholdBack then .fullyUnobserved
       else if b + exampleBeam.thresholdFront < (if v < cfg.minRange then 10000 else v) then .freeOrUnobserved
       else .possiblyOccupied) := by
  have hsz : SizeOk (singleRange v cfg.minRange).image := ⟨Nat.one_pos, by show 1 < 2 ^ 29; decide, Nat.one_pos, by show 1 < 2 ^ 29; decide⟩
  obtain ⟨_, _, ⟨l, hl⟩, ⟨u, hu⟩, _⟩ := constructed_props (constructed_of _ hsz rfl rfl)
  unfold Intersector.determineUpdateType
  simp only [Bool.false_eq_true, if_false]
  rw [if_neg (by push Not; exact ⟨ha, hb⟩)]
  have e1 : (beamIntersector (singleRange v cfg.minRange) onePixelGrid cfg exampleBeam).grid.floorIndex
      ((onAxis a b).lo.u - (beamIntersector (singleRange v cfg.minRange) onePixelGrid cfg exampleBeam).angleThreshold)
      ((onAxis a b).lo.v - (beamIntersector (singleRange v cfg.minRange) onePixelGrid cfg exampleBeam).angleThreshold) = (-1, -1) := by
    have : ⌊(-(1 / 100) : ℝ)⌋ = -1 := by rw [Int.floor_eq_iff]; norm_num
    simp only [beamIntersector, onePixelGrid, onAxis, ImageGrid.floorIndex, ImageGrid.indexRealU, ImageGrid.indexRealV,
      ContinuousBeamConfig.angleThreshold, exampleBeam]
    norm_num at this ⊢
  have e2 : (beamIntersector (singleRange v cfg.minRange) onePixelGrid cfg exampleBeam).grid.ceilIndex
      ((onAxis a b).hi.u + (beamIntersector (singleRange v cfg.minRange) onePixelGrid cfg exampleBeam).angleThreshold)
      ((onAxis a b).hi.v + (beamIntersector (singleRange v cfg.minRange) onePixelGrid cfg exampleBeam).angleThreshold) = (1, 1) := by
    have : ⌈(1 / 100 : ℝ)⌉ = 1 := by rw [Int.ceil_eq_iff]; norm_num
    simp only [beamIntersector, onePixelGrid, onAxis, ImageGrid.ceilIndex, ImageGrid.indexRealU, ImageGrid.indexRealV,
      ContinuousBeamConfig.angleThreshold, exampleBeam]
    norm_num at this ⊢
  rw [e1, e2]
  have e3 : (beamIntersector (singleRange v cfg.minRange) onePixelGrid cfg exampleBeam).bounds = singleRange v cfg.minRange := rfl
  rw [e3]
  have e4 : ((singleRange v cfg.minRange).image.rows : Int) = 1 := rfl
  have e5 : ((singleRange v cfg.minRange).image.cols : Int) = 1 := rfl
  simp only [e4, e5]
  rw [if_neg (by rintro (h | ⟨_, h⟩) <;> exact absurd h (by decide)), if_neg (by decide)]
  unfold RangeBounds.getUpdateType RangeBounds.getLowerBound RangeBounds.getUpperBound
  rw [hl, hu]
  simp only [e4, e5]
  have q : ∀ {α : Type} (f : α → α → α) (im : Image α) (ls : List (Image α)), intervalQuery (singleRange v cfg.minRange).wraps
      (singleRange v cfg.minRange).sx (singleRange v cfg.minRange).sy f im ls (max (-1) 0, max (-1) 0) (min 1 (1 - 1), min 1 (1 - 1))
        = im.at (0, 0) := fun f im ls => by
    unfold intervalQuery; rw [if_pos (by decide)]; rfl
  simp only [Option.bind_eq_bind, Option.bind_some, q]
  have a1 : (singleRange v cfg.minRange).lowerImage.at (0, 0) = some (if v < cfg.minRange then 10000 else v) := by
    rw [image_at _ _ (show (0 : Int) ≤ 0 ∧ (0 : Int) < ((1 : Nat) : Int) ∧ (0 : Int) ≤ 0 ∧ (0 : Int) < ((1 : Nat) : Int) by decide)]
    simp only [RangeBounds.lowerImage, Image.transform, RangeBounds.valueOrInit, RangeBounds.isUnobserved, singleRange,
      RangeBounds.unknownLower]
    by_cases hv : v < cfg.minRange <;> simp [hv]
  have a2 : (singleRange v cfg.minRange).upperImage.at (0, 0) = some (if v < cfg.minRange then 0 else v) := by
    rw [image_at _ _ (show (0 : Int) ≤ 0 ∧ (0 : Int) < ((1 : Nat) : Int) ∧ (0 : Int) ≤ 0 ∧ (0 : Int) < ((1 : Nat) : Int) by decide)]
    simp only [RangeBounds.upperImage, Image.transform, RangeBounds.valueOrInit, RangeBounds.isUnobserved, singleRange,
      RangeBounds.unknownUpper]
    by_cases hv : v < cfg.minRange <;> simp [hv]
  rw [a1, a2]
  simp only [Option.bind_some, Option.pure_def]
  have b1 : (onAxis a b).lo.depth = a := rfl
  have b2 : (onAxis a b).hi.depth = b := rfl
  have b3 : (beamIntersector (singleRange v cfg.minRange) onePixelGrid cfg exampleBeam).thresholdBack = exampleBeam.thresholdBack := rfl
  have b4 : (beamIntersector (singleRange v cfg.minRange) onePixelGrid cfg exampleBeam).thresholdFront = exampleBeam.thresholdFront := rfl
  rw [b1, b2, b3, b4, if_pos (show ((-1, -1) : Idx2) ≠ (max (-1) 0, max (-1) 0) ∨ ((1, 1) : Idx2) ≠ (min 1 (1 - 1), min 1 (1 - 1)) by decide)]
  generalize (if v < cfg.minRange then (0 : ℝ) else v) = x
  generalize (if v < cfg.minRange then (10000 : ℝ) else v) = y
  split
  · rfl
  · split <;> rfl

/-- The hypotheses of the theorems for the beam model are met: a cell from 2 m to 3 m, seen by a pixel that measured 10 m, -/
example : ∃ u, projectiveUpdate ⟨1, 20, 0, 1⟩ (exampleBeam.computeUpdate onePixelGrid (fun a b => (a.1 - b.1) ^ 2 + (a.2 - b.2) ^ 2)
    (singleRange 10 1).image ⟨1, 1, fun _ _ => (0, 0)⟩) ⟨0, 0, 5 / 2⟩ = some u ∧ u ≤ 0 := by
  refine C41_beam_nonpositive_partial (singleRange 10 1) onePixelGrid _ (fun a b => by positivity) _ ⟨1, 20, 0, 1⟩ exampleBeam
    exampleBeam_scaled (by norm_num [exampleBeam]) (singleRange_beam_ok 10 ⟨1, 20, 0, 1⟩) ?_ (onAxis 2 3)
    (fun h => absurd h (lt_irrefl _)) .freeOrUnobserved (Or.inl rfl) ?_ _ ?_
  · intro i v hv
    obtain ⟨_, rfl⟩ := image_at_some _ _ _ hv
    right; show (1 : ℝ) ≤ 10; norm_num
  · rw [singleRange_beam_answer 10 ⟨1, 20, 0, 1⟩ 2 3 (by norm_num) (by norm_num)]
    norm_num [exampleBeam, ContinuousBeamConfig.thresholdBack, ContinuousBeamConfig.thresholdFront]
  · unfold SensorBox.Contains onAxis; norm_num

/-- and a cell from 5 m to 6 m, behind a measurement at 2 m. -/
example : projectiveUpdate ⟨1, 20, 0, 1⟩ (exampleBeam.computeUpdate onePixelGrid (fun a b => (a.1 - b.1) ^ 2 + (a.2 - b.2) ^ 2)
    (singleRange 2 1).image ⟨1, 1, fun _ _ => (0, 0)⟩) ⟨0, 0, 11 / 2⟩ = some 0 := by
  refine C41_beam_unobserved_partial (singleRange 2 1) onePixelGrid _ (fun a b => by positivity) _ ⟨1, 20, 0, 1⟩ exampleBeam
    exampleBeam_scaled (by norm_num [exampleBeam]) (singleRange_beam_ok 2 ⟨1, 20, 0, 1⟩) ?_ (onAxis 5 6)
    (fun h => absurd h (lt_irrefl _)) ?_ _ ?_
  · intro i v hv
    obtain ⟨_, rfl⟩ := image_at_some _ _ _ hv
    right; show (1 : ℝ) ≤ 2; norm_num
  · rw [singleRange_beam_answer 2 ⟨1, 20, 0, 1⟩ 5 6 (by norm_num) (by norm_num)]
    norm_num [exampleBeam, ContinuousBeamConfig.thresholdBack, ContinuousBeamConfig.thresholdFront]
  · unfold SensorBox.Contains onAxis; norm_num

/-- The pixel that is looked at for a point of a cell declared free measured a range behind the point. -/
example : (∀ v, (singleRange 10 1).image.at (0, 0) = some v → (1 : ℝ) ≤ v ∧ (5 / 2 : ℝ) < v - exampleRay.thresholdFront) := by
  refine (C41_free (rayIntersector (singleRange 10 1) onePixelGrid ⟨1, 20, 0, 1⟩ exampleRay) (singleRange_ok 10 ⟨1, 20, 0, 1⟩ exampleRay)
    (onAxis 2 3) (fun h => absurd h (lt_irrefl _)) ?_ ⟨0, 0, 5 / 2⟩ ?_ (0, 0) ?_).1
  · rw [singleRange_answer 10 ⟨1, 20, 0, 1⟩ exampleRay 2 3 (by norm_num) (by norm_num)]
    norm_num [exampleRay, ContinuousRayConfig.thresholdBack, ContinuousRayConfig.thresholdFront]
  · unfold SensorBox.Contains onAxis; norm_num
  · simp [Consulted, rayIntersector, onePixelGrid, ImageGrid.indexRealU, ImageGrid.indexRealV]

end Wavemap
