import Verif.Model.RangeImport
import Mathlib.Tactic.Linarith
import Mathlib.Tactic.NormNum
import Mathlib.Data.List.Perm.Basic
/-!
# C43: importing point clouds and range images
-/
namespace Wavemap

/-! ## Specification -/

/-- The points of a cloud that are used at all: finite, and between 1 mm and 1 km from the sensor. -/
def usable (p : CloudPoint) : Prop :=
  ∃ x y z, p = some (x, y, z) ∧ (1 / 1000) ^ 2 ≤ x ^ 2 + y ^ 2 + z ^ 2 ∧ x ^ 2 + y ^ 2 + z ^ 2 ≤ 1000 ^ 2

/-- `r` is the range of a usable point of the cloud that falls on pixel `i`. -/
def IsReturn (P : Projector) (cloud : List CloudPoint) (i : Idx2) (r : ℝ) : Prop :=
  ∃ q, some q ∈ cloud ∧ usable (some q) ∧
    P.grid.nearestIndex (P.cartesianToSensor q).u (P.cartesianToSensor q).v = i ∧ (P.cartesianToSensor q).depth = r

/-- A pixel of the image. -/
def Projector.Pixel (P : Projector) (i : Idx2) : Prop := 0 ≤ i.1 ∧ i.1 < P.rows ∧ 0 ≤ i.2 ∧ i.2 < P.cols

/-- The images have the projector's dimensions. -/
def RangeState.Fits (P : Projector) (st : RangeState) : Prop :=
  st.range.rows = P.rows ∧ st.range.cols = P.cols ∧ st.offset.rows = P.rows ∧ st.offset.cols = P.cols

/-! ## Lemmas -/

theorem isMeasurementValid_iff (p : CloudPoint) : isMeasurementValid p = true ↔ usable p := by
  unfold usable
  cases p with
  | none => simp [isMeasurementValid]
  | some q =>
    obtain ⟨x, y, z⟩ := q
    simp only [isMeasurementValid]
    constructor
    · intro h
      refine ⟨x, y, z, rfl, ?_⟩
      by_cases h1 : x * x + y * y + z * z < 1 / 1000 * (1 / 1000)
      · rw [if_pos h1] at h; exact absurd h (by decide)
      · rw [if_neg h1] at h
        by_cases h2 : (1000 : ℝ) * 1000 < x * x + y * y + z * z
        · rw [if_pos h2] at h; exact absurd h (by decide)
        · constructor <;> nlinarith
    · rintro ⟨a, b, c, h, h1, h2⟩
      simp only [Option.some.injEq, Prod.mk.injEq] at h
      obtain ⟨rfl, rfl, rfl⟩ := h
      rw [if_neg (by nlinarith), if_neg (by nlinarith)]

theorem image_at {α : Type} (im : Image α) (i : Idx2) (h : 0 ≤ i.1 ∧ i.1 < im.rows ∧ 0 ≤ i.2 ∧ i.2 < im.cols) :
    im.at i = some (im.px i.1.toNat i.2.toNat) := by
  unfold Image.at Image.inBounds
  rw [if_pos]
  simp only [Bool.and_eq_true, decide_eq_true_eq]
  exact ⟨⟨⟨h.1, h.2.2.1⟩, h.2.1⟩, h.2.2.2⟩

theorem image_at_some {α : Type} (im : Image α) (i : Idx2) (v : α) (h : im.at i = some v) :
    (0 ≤ i.1 ∧ i.1 < im.rows ∧ 0 ≤ i.2 ∧ i.2 < im.cols) ∧ v = im.px i.1.toNat i.2.toNat := by
  unfold Image.at at h
  split at h
  · rename_i hb
    unfold Image.inBounds at hb
    simp only [Bool.and_eq_true, decide_eq_true_eq] at hb
    exact ⟨⟨hb.1.1.1, hb.1.2, hb.1.1.2, hb.2⟩, by simpa using h.symm⟩
  · cases h

theorem image_set_at {α : Type} (im : Image α) (i j : Idx2) (v : α) :
    (im.set i v).at j = if j = i then (im.at j).map fun _ => v else im.at j := by
  by_cases hb : im.inBounds j = true
  · have hb' := hb
    unfold Image.inBounds at hb'
    simp only [Bool.and_eq_true, decide_eq_true_eq] at hb'
    have e : (im.set i v).inBounds j = true := hb
    unfold Image.at
    rw [if_pos e, if_pos hb]
    unfold Image.set
    dsimp only
    by_cases hji : j = i
    · subst hji
      rw [if_pos rfl, if_pos ⟨by omega, by omega⟩]; rfl
    · rw [if_neg hji, if_neg]
      intro hh
      apply hji
      ext <;> omega
  · have e : ¬ (im.set i v).inBounds j = true := hb
    unfold Image.at
    rw [if_neg e, if_neg hb]
    split <;> rfl

/-- The value and offset of a pixel, relative to the points imported so far. -/
structure PixelInv (P : Projector) (minRange : ℝ) (init : ℝ) (i : Idx2) (cloud : List CloudPoint) (st : RangeState) :
    Prop where
  fits : st.Fits P
  val : ∃ v o, st.range.at i = some v ∧ st.offset.at i = some o ∧
    ((v = init ∧ o = (0, 0) ∧ ∀ r, ¬ IsReturn P cloud i r) ∨
      (IsReturn P cloud i v ∧ (∀ r, IsReturn P cloud i r → v ≤ r) ∧
        ∃ q, some q ∈ cloud ∧ (P.cartesianToSensor q).depth = v ∧
          P.grid.nearestIndexAndOffset (P.cartesianToSensor q).u (P.cartesianToSensor q).v = (i, o)))

theorem isReturn_mono {P : Projector} {c c' : List CloudPoint} {i : Idx2} {r : ℝ} (hc : ∀ x ∈ c, x ∈ c')
    (h : IsReturn P c i r) : IsReturn P c' i r := by
  obtain ⟨q, hq, h'⟩ := h
  exact ⟨q, hc _ hq, h'⟩

theorem isReturn_snoc {P : Projector} {c : List CloudPoint} {p : CloudPoint} {i : Idx2} {r : ℝ} :
    IsReturn P (c ++ [p]) i r ↔ IsReturn P c i r ∨ IsReturn P [p] i r := by
  unfold IsReturn
  constructor
  · rintro ⟨q, hq, h⟩
    rw [List.mem_append] at hq
    rcases hq with hq | hq
    · exact Or.inl ⟨q, hq, h⟩
    · exact Or.inr ⟨q, hq, h⟩
  · rintro (⟨q, hq, h⟩ | ⟨q, hq, h⟩)
    · exact ⟨q, List.mem_append_left _ hq, h⟩
    · exact ⟨q, List.mem_append_right _ hq, h⟩

theorem importPoint_inv (P : Projector) (minRange init : ℝ) (hinit : init < minRange) (i : Idx2)
    (done : List CloudPoint) (p : CloudPoint) (st : RangeState) (h : PixelInv P minRange init i done st)
    (hge : ∀ r, IsReturn P (done ++ [p]) i r → minRange ≤ r) :
    PixelInv P minRange init i (done ++ [p]) (importPoint P minRange st p) := by
  -- a point without effect on this pixel
  have skip : ∀ st' : RangeState, st'.Fits P → st'.range.at i = st.range.at i → st'.offset.at i = st.offset.at i →
      (∀ r, ¬ IsReturn P [p] i r) → PixelInv P minRange init i (done ++ [p]) st' := by
    intro st' hf h1 h2 hno
    obtain ⟨v, o, hv, ho, hcase⟩ := h.val
    refine ⟨hf, v, o, h1 ▸ hv, h2 ▸ ho, ?_⟩
    rcases hcase with ⟨a, b, c⟩ | ⟨a, b, c⟩
    · refine Or.inl ⟨a, b, fun r hr => ?_⟩
      rcases isReturn_snoc.1 hr with hr | hr
      · exact c r hr
      · exact hno r hr
    · obtain ⟨q, hq, hq'⟩ := c
      refine Or.inr ⟨isReturn_snoc.2 (Or.inl a), fun r hr => ?_, q, List.mem_append_left _ hq, hq'⟩
      rcases isReturn_snoc.1 hr with hr | hr
      · exact b r hr
      · exact absurd hr (hno r)
  unfold importPoint
  cases p with
  | none =>
    refine skip st h.fits rfl rfl ?_
    rintro r ⟨q, hq, _⟩
    simp at hq
  | some q =>
    dsimp only
    by_cases hu : isMeasurementValid (some q) = true
    · rw [if_pos hu]
      set s := P.cartesianToSensor q with hs
      have hio : (P.grid.nearestIndexAndOffset s.u s.v).1 = P.grid.nearestIndex s.u s.v := rfl
      generalize hgo : P.grid.nearestIndexAndOffset s.u s.v = io at *
      obtain ⟨j, oj⟩ := io
      dsimp only at hio ⊢
      obtain ⟨v, o, hv, ho, hcase⟩ := h.val
      by_cases hji : j = i
      · subst hji
        rw [hv]
        dsimp only
        have hret : IsReturn P [some q] j s.depth :=
          ⟨q, by simp, (isMeasurementValid_iff _).1 hu, hio.symm, rfl⟩
        have honly : ∀ r, IsReturn P [some q] j r → r = s.depth := by
          rintro r ⟨q', hq', _, _, hr⟩
          simp only [List.mem_singleton, Option.some.injEq] at hq'
          rw [← hr, hq']
        have hsge := hge s.depth (isReturn_snoc.2 (Or.inr hret))
        by_cases hw : v < minRange ∨ s.depth < v
        · rw [if_pos hw]
          refine ⟨h.fits, s.depth, oj, ?_, ?_, Or.inr ⟨isReturn_snoc.2 (Or.inr hret), ?_, q, by simp, rfl, hgo⟩⟩
          · dsimp only; rw [image_set_at, if_pos rfl, hv]; rfl
          · dsimp only; rw [image_set_at, if_pos rfl, ho]; rfl
          · intro r hr
            rcases isReturn_snoc.1 hr with hr | hr
            · rcases hcase with ⟨_, _, c⟩ | ⟨a, b, _⟩
              · exact absurd hr (c r)
              · have := hge v (isReturn_snoc.2 (Or.inl a))
                have := b r hr
                rcases hw with hw | hw <;> linarith
            · rw [honly r hr]
        · rw [if_neg hw]
          push Not at hw
          refine ⟨h.fits, v, o, hv, ho, ?_⟩
          rcases hcase with ⟨a, _, _⟩ | ⟨a, b, q', hq', c⟩
          · rw [a] at hw; linarith [hw.1]
          · refine Or.inr ⟨isReturn_snoc.2 (Or.inl a), fun r hr => ?_, q', List.mem_append_left _ hq', c⟩
            rcases isReturn_snoc.1 hr with hr | hr
            · exact b r hr
            · rw [honly r hr]; exact hw.2
      · have hno : ∀ r, ¬ IsReturn P [some q] i r := by
          rintro r ⟨q', hq', _, h2, _⟩
          simp only [List.mem_singleton, Option.some.injEq] at hq'
          rw [hq'] at h2
          exact hji (hio.trans h2)
        cases hat : st.range.at j with
        | none => exact skip st h.fits rfl rfl hno
        | some old =>
          dsimp only
          split
          · refine skip _ ?_ ?_ ?_ hno
            · exact h.fits
            · dsimp only; rw [image_set_at, if_neg (Ne.symm hji)]
            · dsimp only; rw [image_set_at, if_neg (Ne.symm hji)]
          · exact skip st h.fits rfl rfl hno
    · rw [if_neg hu]
      refine skip st h.fits rfl rfl ?_
      rintro r ⟨q', hq', hu', _⟩
      simp only [List.mem_singleton, Option.some.injEq] at hq'
      rw [hq'] at hu'
      exact hu ((isMeasurementValid_iff _).2 hu')

theorem foldl_inv (P : Projector) (minRange init : ℝ) (hinit : init < minRange) (i : Idx2) :
    ∀ (todo done : List CloudPoint) (st : RangeState), PixelInv P minRange init i done st →
      (∀ r, IsReturn P (done ++ todo) i r → minRange ≤ r) →
      PixelInv P minRange init i (done ++ todo) (todo.foldl (importPoint P minRange) st) := by
  intro todo
  induction todo with
  | nil => intro done st h _; simpa using h
  | cons p todo ih =>
    intro done st h hge
    rw [List.foldl_cons]
    have e : done ++ p :: todo = (done ++ [p]) ++ todo := by simp
    rw [e] at hge ⊢
    refine ih _ _ (importPoint_inv P minRange init hinit i done p st h fun r hr => hge r ?_) hge
    exact isReturn_mono (fun x hx => List.mem_append_left _ hx) hr

/-! ## Property -/

/-- After importing a point cloud into images whose initial value counts as unobserved (as the integrators construct
them), a pixel all of whose returns are at or beyond the minimum range holds the smallest of its returns, together with the
offset of a point attaining it; a pixel without returns holds the initial value and offset zero. `_partial`: returns below
the minimum range are not ignored (`C43_close_return_fails`). -/
theorem C43_closest_return_partial (P : Projector) (minRange : ℝ) (st : RangeState) (hfit : st.Fits P)
    (hinit : st.initial < minRange) (cloud : List CloudPoint) (i : Idx2) (hi : P.Pixel i)
    (hge : ∀ r, IsReturn P cloud i r → minRange ≤ r) :
    let out := importPointcloud P minRange st cloud
    ((∀ r, ¬ IsReturn P cloud i r) → out.range.at i = some st.initial ∧ out.offset.at i = some (0, 0)) ∧
    ((∃ r, IsReturn P cloud i r) → ∃ v o, out.range.at i = some v ∧ out.offset.at i = some o ∧
      IsReturn P cloud i v ∧ (∀ r, IsReturn P cloud i r → v ≤ r) ∧
      ∃ q, some q ∈ cloud ∧ (P.cartesianToSensor q).depth = v ∧
        P.grid.nearestIndexAndOffset (P.cartesianToSensor q).u (P.cartesianToSensor q).v = (i, o)) := by
  have base : PixelInv P minRange st.initial i []
      { st with range := st.range.setToConstant st.initial, offset := st.offset.setToConstant (0, 0) } := by
    refine ⟨hfit, st.initial, (0, 0), ?_, ?_, Or.inl ⟨rfl, rfl, ?_⟩⟩
    · rw [image_at]
      · rfl
      · show 0 ≤ i.1 ∧ i.1 < st.range.rows ∧ 0 ≤ i.2 ∧ i.2 < st.range.cols
        rw [hfit.1, hfit.2.1]; exact hi
    · rw [image_at]
      · rfl
      · show 0 ≤ i.1 ∧ i.1 < st.offset.rows ∧ 0 ≤ i.2 ∧ i.2 < st.offset.cols
        rw [hfit.2.2.1, hfit.2.2.2]; exact hi
    · rintro r ⟨q, hq, _⟩; cases hq
  have main := foldl_inv P minRange st.initial hinit i cloud [] _ base (by simpa using hge)
  rw [List.nil_append] at main
  intro out
  obtain ⟨v, o, hv, ho, hc⟩ := main.val
  constructor
  · intro hno
    rcases hc with ⟨a, b, _⟩ | ⟨a, _⟩
    · exact ⟨by rw [← a]; exact hv, by rw [← b]; exact ho⟩
    · exact absurd a (hno v)
  · rintro ⟨r, hr⟩
    rcases hc with ⟨_, _, c⟩ | hc
    · exact absurd hr (c r)
    · exact ⟨v, o, hv, ho, hc⟩

/-- The order of the points does not matter for the ranges (returns at or beyond the minimum range). -/
theorem C43_order_independent_partial (P : Projector) (minRange : ℝ) (st : RangeState) (hfit : st.Fits P)
    (hinit : st.initial < minRange) (cloud cloud' : List CloudPoint) (hp : cloud.Perm cloud') (i : Idx2) (hi : P.Pixel i)
    (hge : ∀ r, IsReturn P cloud i r → minRange ≤ r) :
    (importPointcloud P minRange st cloud').range.at i = (importPointcloud P minRange st cloud).range.at i := by
  have iff : ∀ r, IsReturn P cloud' i r ↔ IsReturn P cloud i r := fun r =>
    ⟨isReturn_mono fun x hx => hp.mem_iff.2 hx, isReturn_mono fun x hx => hp.mem_iff.1 hx⟩
  obtain ⟨a, b⟩ := C43_closest_return_partial P minRange st hfit hinit cloud i hi hge
  obtain ⟨a', b'⟩ := C43_closest_return_partial P minRange st hfit hinit cloud' i hi
    fun r hr => hge r ((iff r).1 hr)
  by_cases h : ∃ r, IsReturn P cloud i r
  · obtain ⟨v, o, hv, _, h1, h2, _⟩ := b h
    obtain ⟨w, o', hw, _, h1', h2', _⟩ := b' (h.imp fun r hr => (iff r).2 hr)
    rw [hv, hw]
    congr 1
    exact le_antisymm (h2' v ((iff v).2 h1)) (h2 w ((iff w).1 h1'))
  · push Not at h
    rw [(a h).1, (a' fun r hr => h r ((iff r).1 hr)).1]

/-- A one-pixel sensor that reports `x` as depth. -/
noncomputable def onePixel : Projector := ⟨1, 1, ⟨1, 1, 0, 0⟩, fun q => ⟨0, 0, q.1⟩⟩

theorem onePixel_index : (onePixel.grid.nearestIndex 0 0) = (0, 0) := by
  simp [onePixel, ImageGrid.nearestIndex, ImageGrid.indexRealU, ImageGrid.indexRealV, roundR]
  norm_num

theorem onePixel_usable (x : ℝ) (h1 : 1 ≤ x) (h2 : x ≤ 10) : usable (some (x, 0, 0)) :=
  ⟨x, 0, 0, rfl, by nlinarith, by nlinarith⟩

/-- The hypotheses of the theorems above are met by a cloud with two returns on one pixel, of which the closer one is
kept. -/
example : let cloud : List CloudPoint := [some (5, 0, 0), none, some (3, 0, 0)]
    (RangeState.init onePixel).Fits onePixel ∧ (RangeState.init onePixel).initial < 1 ∧ onePixel.Pixel (0, 0) ∧
    IsReturn onePixel cloud (0, 0) 5 ∧ IsReturn onePixel cloud (0, 0) 3 ∧
    (∀ r, IsReturn onePixel cloud (0, 0) r → (1 : ℝ) ≤ r) := by
  refine ⟨⟨rfl, rfl, rfl, rfl⟩, by norm_num [RangeState.init], by simp [Projector.Pixel, onePixel], ?_, ?_, ?_⟩
  · exact ⟨(5, 0, 0), by simp, onePixel_usable 5 (by norm_num) (by norm_num), onePixel_index, rfl⟩
  · exact ⟨(3, 0, 0), by simp, onePixel_usable 3 (by norm_num) (by norm_num), onePixel_index, rfl⟩
  · rintro r ⟨q, hq, _, _, hr⟩
    simp only [List.mem_cons, Option.some.injEq, reduceCtorEq, List.not_mem_nil, or_false, false_or] at hq
    rcases hq with rfl | rfl <;> (rw [← hr]; norm_num [onePixel])

theorem onePixel_step (m : ℝ) (st : RangeState) (hr : st.range.rows = 1) (hc : st.range.cols = 1) (x : ℝ) (h1 : 1 ≤ x)
    (h2 : x ≤ 10) :
    (importPoint onePixel m st (some (x, 0, 0))).range.rows = 1 ∧
    (importPoint onePixel m st (some (x, 0, 0))).range.cols = 1 ∧
    (importPoint onePixel m st (some (x, 0, 0))).range.px 0 0 =
      if st.range.px 0 0 < m ∨ x < st.range.px 0 0 then x else st.range.px 0 0 := by
  have hv := (isMeasurementValid_iff _).2 (onePixel_usable x h1 h2)
  have hio : (onePixel.grid.nearestIndexAndOffset (0 : ℝ) 0).1 = (0, 0) := onePixel_index
  have hat : st.range.at (0, 0) = some (st.range.px 0 0) := by
    rw [image_at]
    · rfl
    · rw [hr, hc]; simp
  unfold importPoint
  simp only [hv, if_true]
  rw [show onePixel.cartesianToSensor (x, 0, 0) = ⟨0, 0, x⟩ from rfl]
  dsimp only
  rw [hio, hat]
  dsimp only
  split
  · refine ⟨hr, hc, ?_⟩
    simp [Image.set]
  · exact ⟨hr, hc, rfl⟩

/-- A return below the minimum range replaces a valid one that was imported before it: after the returns 5 and 1 with
minimum range 2 the pixel counts as unobserved, after the returns 1 and 5 it holds 5. -/
theorem C43_close_return_fails : ∃ (P : Projector) (minRange : ℝ) (a b : CloudPoint), 0 < minRange ∧
    usable a ∧ usable b ∧
    (importPointcloud P minRange (RangeState.init P) [a, b]).range.at (0, 0) = some 1 ∧ (1 : ℝ) < minRange ∧
    (importPointcloud P minRange (RangeState.init P) [b, a]).range.at (0, 0) = some 5 := by
  refine ⟨onePixel, 2, some (5, 0, 0), some (1, 0, 0), by norm_num, onePixel_usable 5 (by norm_num) (by norm_num),
    onePixel_usable 1 (by norm_num) (by norm_num), ?_, by norm_num, ?_⟩
  all_goals
    unfold importPointcloud
    simp only [List.foldl_cons, List.foldl_nil]
    generalize hst : ({ RangeState.init onePixel with
      range := (RangeState.init onePixel).range.setToConstant (RangeState.init onePixel).initial,
      offset := (RangeState.init onePixel).offset.setToConstant (0, 0) } : RangeState) = st
    have r0 : st.range.rows = 1 := by rw [← hst]; rfl
    have c0 : st.range.cols = 1 := by rw [← hst]; rfl
    have p0 : st.range.px 0 0 = 0 := by rw [← hst]; rfl
  · obtain ⟨r1, c1, p1⟩ := onePixel_step 2 st r0 c0 5 (by norm_num) (by norm_num)
    rw [p0, if_pos (Or.inl (by norm_num))] at p1
    obtain ⟨r2, c2, p2⟩ := onePixel_step 2 _ r1 c1 1 (by norm_num) (by norm_num)
    rw [p1, if_pos (Or.inr (by norm_num))] at p2
    rw [image_at _ _ (by rw [r2, c2]; simp)]
    exact congrArg some p2
  · obtain ⟨r1, c1, p1⟩ := onePixel_step 2 st r0 c0 1 (by norm_num) (by norm_num)
    rw [p0, if_pos (Or.inl (by norm_num))] at p1
    obtain ⟨r2, c2, p2⟩ := onePixel_step 2 _ r1 c1 5 (by norm_num) (by norm_num)
    rw [p1, if_pos (Or.inl (by norm_num))] at p2
    rw [image_at _ _ (by rw [r2, c2]; simp)]
    exact congrArg some p2

/-- Measurements with an invalid pose, and range images whose dimensions differ from the projector's, change nothing;
otherwise a range image is taken over as it is, with all beam offsets zero. -/
theorem C43_range_image (P : Projector) (st : RangeState) (hfit : st.Fits P) (im : Image ℝ) (v : ℝ) (poseValid : Bool)
    (minRange : ℝ) (cloud : List CloudPoint) :
    (integratePointcloud P minRange false st cloud = (false, st)) ∧
    (integrateRangeImage P false st im v = (false, st)) ∧
    ((im.rows ≠ P.rows ∨ im.cols ≠ P.cols) → integrateRangeImage P poseValid st im v = (false, st)) ∧
    ((im.rows = P.rows ∧ im.cols = P.cols) → (integrateRangeImage P true st im v).1 = true ∧
      ∀ i, P.Pixel i → (integrateRangeImage P true st im v).2.range.at i = im.at i ∧
        (integrateRangeImage P true st im v).2.offset.at i = some (0, 0)) := by
  refine ⟨rfl, ?_, ?_, ?_⟩
  · unfold integrateRangeImage; split <;> rfl
  · intro h; unfold integrateRangeImage; rw [if_pos h]
  · rintro ⟨h1, h2⟩
    unfold integrateRangeImage
    rw [if_neg (by push Not; exact ⟨h1, h2⟩), if_pos rfl]
    refine ⟨rfl, fun i hi => ⟨rfl, ?_⟩⟩
    unfold importRangeImage
    dsimp only
    rw [image_at]
    · rfl
    · show 0 ≤ i.1 ∧ i.1 < st.offset.rows ∧ 0 ≤ i.2 ∧ i.2 < st.offset.cols
      rw [hfit.2.2.1, hfit.2.2.2]; exact hi

/-- A range image brings its own initial value along: the next, even empty, point cloud then starts from that value
instead of from unobserved pixels. -/
theorem C43_initial_value_fails : ∃ (P : Projector) (minRange : ℝ) (im : Image ℝ) (v : ℝ), 0 < minRange ∧ minRange < v ∧
    im.rows = P.rows ∧ im.cols = P.cols ∧
    (importPointcloud P minRange (importRangeImage (RangeState.init P) im v) []).range.at (0, 0) = some v := by
  refine ⟨onePixel, 1, ⟨1, 1, fun _ _ => 0⟩, 5, by norm_num, by norm_num, rfl, rfl, ?_⟩
  unfold importPointcloud importRangeImage
  simp only [List.foldl_nil]
  rw [image_at]
  · rfl
  · simp [Image.setToConstant]

/-- A range image of one pixel. -/
example : (integrateRangeImage onePixel true (RangeState.init onePixel) ⟨1, 1, fun _ _ => 7⟩ 0).2.range.at (0, 0) = some 7 := by
  have h := (C43_range_image onePixel (RangeState.init onePixel) ⟨rfl, rfl, rfl, rfl⟩ ⟨1, 1, fun _ _ => 7⟩ 0 true 1 []).2.2.2 ⟨rfl, rfl⟩
  rw [(h.2 (0, 0) (by simp [Projector.Pixel, onePixel])).1]
  simp [Image.at, Image.inBounds]

end Wavemap
