import Verif.Lemmas.RangeBounds
/-!
# C40: the range image pyramid gives conservative bounds
-/
namespace Wavemap

/-! ## Specification -/

/-- An image of at most `2^29` pixels per side, as representable by the index type after scaling. -/
def SizeOk (im : Image ℝ) : Prop := 0 < im.rows ∧ im.rows < 2 ^ 29 ∧ 0 < im.cols ∧ im.cols < 2 ^ 29

/-- The interval from pixel `mn` to pixel `mx`: ordered in both axes, or, when the columns wrap around, running from
`mn` through the seam to `mx`. -/
def ValidInterval (h : RangeBounds) (mn mx : Idx2) : Prop :=
  0 ≤ mn.1 ∧ mn.1 ≤ mx.1 ∧ mx.1 < h.image.rows ∧ 0 ≤ mn.2 ∧ mn.2 < h.image.cols ∧ 0 ≤ mx.2 ∧ mx.2 < h.image.cols ∧
    (mn.2 ≤ mx.2 ∨ h.wraps = true)

/-- The pixels of an interval. -/
def PixelIn (h : RangeBounds) (mn mx i : Idx2) : Prop :=
  mn.1 ≤ i.1 ∧ i.1 ≤ mx.1 ∧ 0 ≤ i.2 ∧ i.2 < h.image.cols ∧
    if mn.2 ≤ mx.2 then mn.2 ≤ i.2 ∧ i.2 ≤ mx.2 else mn.2 ≤ i.2 ∨ i.2 ≤ mx.2

/-- `h` is the result of the constructor. -/
def Constructed (h : RangeBounds) : Prop :=
  ∃ (im : Image ℝ) (wraps : Bool) (minRange : ℝ) (scale : Int × Int),
    RangeBounds.create im wraps minRange scale = some h

/-! ## Lemmas -/

theorem constructed_props {h : RangeBounds} (hc : Constructed h) :
    ScaleOk h.sx ∧ ScaleOk h.sy ∧ (∃ l, h.lowerLevels = some l) ∧ (∃ l, h.upperLevels = some l) ∧
      (∃ l, h.maskLevels = some l) := by
  obtain ⟨im, w, mr, sc, e⟩ := hc
  unfold RangeBounds.create at e
  split at e
  · rename_i hs
    dsimp only at e
    split at e
    · rename_i hl
      simp only [Option.some.injEq] at e
      subst e
      refine ⟨?_, ?_, Option.isSome_iff_exists.1 hl.1, Option.isSome_iff_exists.1 hl.2.1,
        Option.isSome_iff_exists.1 hl.2.2⟩
      · show ScaleOk sc.1.toNat; unfold ScaleOk; omega
      · show ScaleOk sc.2.toNat; unfold ScaleOk; omega
    · cases e
  · cases e

theorem absorbs_min (p : ℝ) : Absorbs min (fun v : ℝ => v ≤ p) :=
  fun _ _ => ⟨fun h => (min_le_left _ _).trans h, fun h => (min_le_right _ _).trans h⟩

theorem absorbs_max (p : ℝ) : Absorbs max (fun v : ℝ => p ≤ v) :=
  fun _ _ => ⟨fun h => h.trans (le_max_left _ _), fun h => h.trans (le_max_right _ _)⟩

theorem absorbs_or : Absorbs or (fun v : Bool => v = true) := fun a b => by
  cases a <;> cases b <;> simp

theorem scaled_lt {s n : Nat} (hs : ScaleOk s) (hn : n < 2 ^ 29) : s * n < 2 ^ 30 := by
  rcases hs with rfl | rfl <;> omega

/-! ## Property -/

/-- For every interval of pixels, all accesses are in range, every observed pixel of the interval lies between the
returned bounds, and the interval is reported to hold unobserved pixels whenever one of its pixels is. Unobserved pixels at
or below zero (missing returns are zero) do not exceed the upper bound either. `_partial`: for intervals through the seam
the number of columns must be a power of two; other widths are accepted by the constructor but not supported
(`C40_wrap_fails`). -/
theorem C40_conservative_partial (h : RangeBounds) (hc : Constructed h) (hsz : SizeOk h.image) (mn mx : Idx2)
    (hiv : ValidInterval h mn mx) (hpow : mn.2 ≤ mx.2 ∨ ∃ m, h.image.cols = 2 ^ m) :
    ∃ lower upper unobserved, h.getLowerBound mn mx = some lower ∧ h.getUpperBound mn mx = some upper ∧
      h.hasUnobserved mn mx = some unobserved ∧
      ∀ i v, PixelIn h mn mx i → h.image.at i = some v →
        (h.minRange ≤ v → lower ≤ v ∧ v ≤ upper) ∧
        (v < h.minRange → unobserved = true) ∧
        (v < h.minRange → v ≤ 0 → v ≤ upper) := by
  obtain ⟨hsx, hsy, ⟨ll, hll⟩, ⟨ul, hul⟩, ⟨ml, hml⟩⟩ := constructed_props hc
  obtain ⟨h1, h2, h3, h4, h5, h6, h7, h8⟩ := hiv
  obtain ⟨_, s1, _, s2⟩ := hsz
  obtain ⟨mn1, mn2⟩ := mn
  obtain ⟨mx1, mx2⟩ := mx
  dsimp only at h1 h2 h3 h4 h5 h6 h7 h8 hpow
  obtain ⟨a, rfl⟩ := Int.eq_ofNat_of_zero_le h1
  obtain ⟨b, rfl⟩ := Int.eq_ofNat_of_zero_le h4
  obtain ⟨c, rfl⟩ := Int.eq_ofNat_of_zero_le (h1.trans h2)
  obtain ⟨d, rfl⟩ := Int.eq_ofNat_of_zero_le h6
  have hbd : b ≤ d ∨ (h.wraps = true ∧ ∃ m, h.image.cols = 2 ^ m) := by
    by_cases hle : b ≤ d
    · exact Or.inl hle
    · refine Or.inr ⟨?_, ?_⟩
      · rcases h8 with h8 | h8
        · omega
        · exact h8
      · rcases hpow with hp | hp
        · omega
        · exact hp
  have ac : a ≤ c := by omega
  have cr : c < h.image.rows := by omega
  have bc : b < h.image.cols := by omega
  have dc : d < h.image.cols := by omega
  obtain ⟨lower, hl, cl⟩ := intervalQuery_covers h.wraps hsx hsy min RangeBounds.unknownLower h.lowerImage
    (scaled_lt hsx s1) (scaled_lt hsy s2) hll ac cr bc dc hbd
  obtain ⟨upper, hu, cu⟩ := intervalQuery_covers h.wraps hsx hsy max RangeBounds.unknownUpper h.upperImage
    (scaled_lt hsx s1) (scaled_lt hsy s2) hul ac cr bc dc hbd
  obtain ⟨mask, hm, cm⟩ := intervalQuery_covers h.wraps hsx hsy or true h.maskImage
    (scaled_lt hsx s1) (scaled_lt hsy s2) hml ac cr bc dc hbd
  refine ⟨lower, upper, mask, ?_, ?_, ?_, ?_⟩
  · unfold RangeBounds.getLowerBound; rw [hll]; exact hl
  · unfold RangeBounds.getUpperBound; rw [hul]; exact hu
  · unfold RangeBounds.hasUnobserved; rw [hml]; exact hm
  · intro i v hin hv
    obtain ⟨hib, rfl⟩ := image_at_some _ _ _ hv
    obtain ⟨p1, p2, p3, p4, p5⟩ := hin
    obtain ⟨i1, i2⟩ := i
    dsimp only at hib p1 p2 p3 p4 p5
    obtain ⟨x, rfl⟩ := Int.eq_ofNat_of_zero_le hib.1
    obtain ⟨y, rfl⟩ := Int.eq_ofNat_of_zero_le hib.2.2.1
    have hS : x < h.image.rows ∧ y < h.image.cols ∧ InInterval h.wraps a b c d x y := by
      refine ⟨by omega, by omega, ⟨by omega, by omega⟩, ?_⟩
      by_cases hle : b ≤ d
      · rw [if_neg (by omega)]
        rw [if_pos (by omega)] at p5
        omega
      · have hw : h.wraps = true := by
          rcases hbd with hh | hh
          · omega
          · exact hh.1
        rw [if_pos ⟨hw, by omega⟩]
        rw [if_neg (by omega)] at p5
        omega
    simp only [Int.toNat_natCast]
    refine ⟨fun hge => ⟨?_, ?_⟩, fun hlt => ?_, fun hlt h0 => ?_⟩
    · refine cl (fun w => w ≤ h.image.px x y) (absorbs_min _) x y hS ?_
      show h.valueOrInit _ (h.image.px x y) ≤ h.image.px x y
      unfold RangeBounds.valueOrInit RangeBounds.isUnobserved
      rw [if_neg (not_lt.2 hge)]
      exact le_refl _
    · refine cu (fun w => h.image.px x y ≤ w) (absorbs_max _) x y hS ?_
      show h.image.px x y ≤ h.valueOrInit _ (h.image.px x y)
      unfold RangeBounds.valueOrInit RangeBounds.isUnobserved
      rw [if_neg (not_lt.2 hge)]
      exact le_refl _
    · refine cm (fun w => w = true) absorbs_or x y hS ?_
      show h.isUnobserved (h.image.px x y) = true
      unfold RangeBounds.isUnobserved
      rw [if_pos hlt]
    · refine cu (fun w => h.image.px x y ≤ w) (absorbs_max _) x y hS ?_
      show h.image.px x y ≤ h.valueOrInit _ (h.image.px x y)
      unfold RangeBounds.valueOrInit RangeBounds.isUnobserved
      rw [if_pos hlt, if_pos rfl]
      exact h0

/-- The scale factors computed from non-zero pixel strides are 1 or 2 and one of them is 1, so that together with a
supported image the constructor's checks hold. -/
theorem C40_constructor (strideU strideV : ℝ) (hu : strideU ≠ 0) (hv : strideV ≠ 0) (im : Image ℝ) (hsz : SizeOk im)
    (wraps : Bool) (minRange : ℝ) :
    (RangeBounds.create im wraps minRange (RangeBounds.scaleFactor strideU strideV)).isSome = true := by
  have hu' := abs_pos.2 hu
  have hv' := abs_pos.2 hv
  have one : ∀ p q : ℝ, 0 < p → p ≤ q → (⌊min (p / min p q) 2⌋ = 1 ∧ 1 ≤ ⌊min (q / min p q) 2⌋ ∧ ⌊min (q / min p q) 2⌋ ≤ 2) := by
    intro p q hp hpq
    rw [min_eq_left hpq, div_self hp.ne']
    refine ⟨by rw [min_eq_left (by norm_num)]; exact Int.floor_one, ?_, ?_⟩
    · apply Int.le_floor.2
      rw [Int.cast_one]
      exact le_min ((one_le_div hp).2 hpq) (by norm_num)
    · have : ⌊min (q / p) 2⌋ ≤ ⌊(2 : ℝ)⌋ := Int.floor_le_floor (min_le_right _ _)
      simpa using this
  have scale : (let s := RangeBounds.scaleFactor strideU strideV
      (s.1 = 1 ∨ s.2 = 1) ∧ (1 ≤ s.1 ∧ 1 ≤ s.2) ∧ (s.1 ≤ 2 ∧ s.2 ≤ 2)) := by
    unfold RangeBounds.scaleFactor
    dsimp only
    rcases le_total |strideU| |strideV| with h | h
    · obtain ⟨a, b, c⟩ := one _ _ hu' h
      omega
    · obtain ⟨a, b, c⟩ := one _ _ hv' h
      rw [min_comm |strideU| |strideV|]
      omega
  dsimp only at scale
  unfold RangeBounds.create
  rw [if_pos scale]
  dsimp only
  generalize RangeBounds.scaleFactor strideU strideV = sc at scale ⊢
  obtain ⟨hr, hr', hcl, hcl'⟩ := hsz
  have lev : ∀ {β : Type} (f : β → β → β) (init : β) (im' : Image β), im'.rows = im.rows → im'.cols = im.cols →
      (computeReducedPyramid wraps sc.1.toNat sc.2.toNat f init im').isSome = true := by
    intro β f init im' e1 e2
    unfold computeReducedPyramid
    rw [if_neg, e1, e2]
    · have sx : ScaleOk sc.1.toNat := by unfold ScaleOk; omega
      have sy : ScaleOk sc.2.toNat := by unfold ScaleOk; omega
      have b1 := scaled_lt sx hr'
      have b2 := scaled_lt sy hcl'
      obtain ⟨n, hn, _⟩ := log2CeilInt_spec (x := max (sc.1.toNat * im.rows) (sc.2.toNat * im.cols))
        (by have := scaleOk_lt sx hr; omega) (by omega)
      rw [hn]; rfl
    · rintro ⟨_, hp⟩
      rw [e2] at hp
      exact popcount_pos (by omega) (by omega) hp
  rw [if_pos]
  · rfl
  · exact ⟨lev _ _ _ rfl rfl, lev _ _ _ rfl rfl, lev _ _ _ rfl rfl⟩

/-- A 2 x 8 image of a sensor that wraps around. -/
noncomputable def exampleBounds : RangeBounds := ⟨⟨2, 8, fun x y => if x = 0 ∧ y = 7 then 0 else x + 2 * y + 3⟩, true, 1, 1, 1⟩

theorem exampleBounds_constructed : Constructed exampleBounds := by
  have h := C40_constructor 1 1 (by norm_num) (by norm_num) exampleBounds.image
    (by unfold SizeOk exampleBounds; decide) true 1
  have e : RangeBounds.scaleFactor 1 1 = (1, 1) := by
    unfold RangeBounds.scaleFactor; norm_num
  rw [e] at h
  refine ⟨exampleBounds.image, true, 1, (1, 1), ?_⟩
  unfold RangeBounds.create at h ⊢
  rw [if_pos (by decide)] at h ⊢
  dsimp only at h ⊢
  split
  · rfl
  · rename_i hn; rw [if_neg hn] at h; cases h

/-- The hypotheses of `C40_conservative_partial` are met, also for an interval through the seam. -/
example : ∃ lower upper, exampleBounds.getLowerBound (0, 6) (1, 1) = some lower ∧
    exampleBounds.getUpperBound (0, 6) (1, 1) = some upper ∧ lower ≤ 3 ∧ 18 ≤ upper ∧
    exampleBounds.hasUnobserved (0, 6) (1, 1) = some true := by
  obtain ⟨l, u, o, hl, hu, ho, h⟩ := C40_conservative_partial exampleBounds exampleBounds_constructed
    (by unfold SizeOk exampleBounds; decide) (0, 6) (1, 1) (by unfold ValidInterval exampleBounds; decide)
    (Or.inr ⟨3, rfl⟩)
  have at0 : exampleBounds.image.at (0, 0) = some 3 := by
    rw [image_at _ _ (by unfold exampleBounds; decide)]
    simp [exampleBounds]
  have at1 : exampleBounds.image.at (1, 7) = some 18 := by
    rw [image_at _ _ (by unfold exampleBounds; decide)]
    simp [exampleBounds]; norm_num
  have at2 : exampleBounds.image.at (0, 7) = some 0 := by
    rw [image_at _ _ (by unfold exampleBounds; decide)]
    simp [exampleBounds]
  have m1 : exampleBounds.minRange = 1 := rfl
  refine ⟨l, u, hl, hu, ((h (0, 0) 3 (by unfold PixelIn exampleBounds; decide) at0).1 (by rw [m1]; norm_num)).1,
    ((h (1, 7) 18 (by unfold PixelIn exampleBounds; decide) at1).1 (by rw [m1]; norm_num)).2, ?_⟩
  rw [ho, (h (0, 7) 0 (by unfold PixelIn exampleBounds; decide) at2).2.1 (by rw [m1]; norm_num)]

/-- A wrapping image with five columns passes the constructor's check, and the interval from column 3 through the seam to
column 2, which holds the whole image, gets the lower bound 10 although column 4 measured 2. -/
theorem C40_wrap_fails : ∃ (h : RangeBounds) (mn mx : Idx2) (v : ℝ) (i : Idx2) (lower : ℝ), Constructed h ∧ SizeOk h.image ∧
    ValidInterval h mn mx ∧ PixelIn h mn mx i ∧ h.image.at i = some v ∧ h.minRange ≤ v ∧
    h.getLowerBound mn mx = some lower ∧ v < lower := by
  let im : Image ℝ := ⟨1, 5, fun _ y => if y = 4 then 2 else 10⟩
  let h : RangeBounds := ⟨im, true, 1, 1, 1⟩
  have hsz : SizeOk im := by unfold SizeOk; decide
  have hcon : Constructed h := by
    have hh := C40_constructor 1 1 (by norm_num) (by norm_num) im hsz true 1
    have e : RangeBounds.scaleFactor 1 1 = (1, 1) := by
      unfold RangeBounds.scaleFactor; norm_num
    rw [e] at hh
    refine ⟨im, true, 1, (1, 1), ?_⟩
    unfold RangeBounds.create at hh ⊢
    rw [if_pos (by decide)] at hh ⊢
    dsimp only at hh ⊢
    split
    · rfl
    · rename_i hn; rw [if_neg hn] at hh; cases hh
  refine ⟨h, (0, 3), (0, 2), 2, (0, 4), 10, hcon, hsz, by unfold ValidInterval; decide, by unfold PixelIn; decide, ?_,
    by show (1 : ℝ) ≤ 2; norm_num, ?_, by norm_num⟩
  · rw [image_at _ _ (by decide)]; rfl
  · have hlev : h.lowerLevels = some ((List.range 3).map
        (pyramidLevel true 1 1 min RangeBounds.unknownLower h.lowerImage)) := by
      unfold RangeBounds.lowerLevels computeReducedPyramid
      have e : log2CeilInt (max (h.sx * h.lowerImage.rows) (h.sy * h.lowerImage.cols)) = some 3 := by decide
      rw [if_neg (by decide), e]
      rfl
    unfold RangeBounds.getLowerBound
    rw [hlev]
    simp only [Option.bind_eq_bind, Option.bind_some]
    unfold intervalQuery
    rw [if_neg (by decide)]
    have e1 : (if h.wraps = true ∧ ((0, 2) : Idx2).2 < ((0, 3) : Idx2).2 then
        ((((0, 2) : Idx2).1, ((0, 2) : Idx2).2 + (h.lowerImage.cols : Int)) : Idx2) else (0, 2)) = (0, 7) := by decide
    dsimp only at e1 ⊢
    rw [e1]
    rw [if_neg (by decide)]
    have e2 : (if max ((scaleIdx h.sx h.sy (0, 7)).1 - (scaleIdx h.sx h.sy (0, 3)).1)
        ((scaleIdx h.sx h.sy (0, 7)).2 - (scaleIdx h.sx h.sy (0, 3)).2) = 0 then some 0 else
        log2FloorInt (max ((scaleIdx h.sx h.sy (0, 7)).1 - (scaleIdx h.sx h.sy (0, 3)).1)
        ((scaleIdx h.sx h.sy (0, 7)).2 - (scaleIdx h.sx h.sy (0, 3)).2)).toNat) = some 2 := by decide
    rw [e2]
    dsimp only
    rw [show shiftIdx (scaleIdx h.sx h.sy (0, 3)) 2 = (0, 0) by decide,
      show shiftIdx (scaleIdx h.sx h.sy (0, 2)) 2 = (0, 0) by decide,
      show shiftIdx (scaleIdx h.sx h.sy (0, 7)) 2 = (0, 1) by decide]
    unfold queryCells
    rw [if_pos (by decide), if_neg (by decide), if_pos (by decide), if_neg (by decide)]
    have hpx : ∀ y, y ≠ 4 → h.lowerImage.px 0 y = 10 := by
      intro y hy
      show h.valueOrInit _ (if y = 4 then (2 : ℝ) else 10) = 10
      rw [if_neg hy]
      unfold RangeBounds.valueOrInit RangeBounds.isUnobserved
      rw [if_neg (show ¬ (10 : ℝ) < 1 by norm_num), if_neg (by decide)]
    have hl0 : ∀ y, y < 2 → (pyramidLevel true 1 1 min RangeBounds.unknownLower h.lowerImage 0).px 0 y = 10 := by
      intro y hy
      show reduceCell _ _ _ _ _ _ _ _ = _
      unfold reduceCell
      rw [if_pos ⟨by decide, by show 2 * y / 1 < 5; omega⟩]
      dsimp only
      rw [if_neg (by decide), if_pos (by show (2 * y + 1) / 1 < 5; omega)]
      rw [show 2 * 0 / 1 = 0 by rfl, hpx _ (by omega), hpx _ (by omega)]
      unfold RangeBounds.unknownLower; norm_num
    have hl1 : levelAt ((List.range 3).map (pyramidLevel true 1 1 min RangeBounds.unknownLower h.lowerImage))
        ((2 : Nat) - 1 : Int) (0, 0) = some 10 := by
      have : levelAt ((List.range 3).map (pyramidLevel true 1 1 min RangeBounds.unknownLower h.lowerImage))
        ((2 : Nat) - 1 : Int) (0, 0) = (pyramidLevel true 1 1 min RangeBounds.unknownLower h.lowerImage 1).at (0, 0) := rfl
      rw [this, image_at _ _ (by decide)]
      congr 1
      show reduceCell _ _ _ _ _ _ _ _ = _
      unfold reduceCell
      rw [if_pos (by decide)]
      dsimp only
      rw [if_neg (by decide), if_pos (by decide)]
      show min (min ((pyramidLevel true 1 1 min RangeBounds.unknownLower h.lowerImage 0).px 0 0)
        ((pyramidLevel true 1 1 min RangeBounds.unknownLower h.lowerImage 0).px 0 1)) RangeBounds.unknownLower = 10
      rw [hl0 0 (by omega), hl0 1 (by omega)]
      unfold RangeBounds.unknownLower; norm_num
    rw [hl1]
    simp [reduce2]

end Wavemap
