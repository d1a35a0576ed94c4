import Verif.Model.Projectors
import Verif.Props.Intersector
import Mathlib.Tactic.FinCases
/-!
# C59: projection round trip and projected bounding boxes
-/
namespace Wavemap

/-! ## Specification -/

/-- The points of an axis-aligned box. -/
def InCell (lo hi p : Vec3) : Prop := ∀ k, lo k ≤ p k ∧ p k ≤ hi k

/-- The corners of an axis-aligned box. -/
def IsCorner (lo hi q : Vec3) : Prop := ∀ k, q k = lo k ∨ q k = hi k

/-! ## Lemmas -/

theorem cornerMin_le (f : Fin 8 → ℝ) (i : Fin 8) : cornerMin f ≤ f i := by
  unfold cornerMin
  have key : ∀ (l : List (Fin 8)) (a : ℝ), l.foldl (fun a i => min a (f i)) a ≤ a ∧
      ∀ i ∈ l, l.foldl (fun a i => min a (f i)) a ≤ f i := by
    intro l
    induction l with
    | nil => intro a; exact ⟨le_refl _, fun i h => by cases h⟩
    | cons x l ih =>
      intro a
      obtain ⟨h1, h2⟩ := ih (min a (f x))
      refine ⟨h1.trans (min_le_left _ _), fun i hi => ?_⟩
      rcases List.mem_cons.1 hi with rfl | hi
      · exact h1.trans (min_le_right _ _)
      · exact h2 i hi
  exact (key _ _).2 i (List.mem_finRange i)

theorem le_cornerMax (f : Fin 8 → ℝ) (i : Fin 8) : f i ≤ cornerMax f := by
  unfold cornerMax
  have key : ∀ (l : List (Fin 8)) (a : ℝ), a ≤ l.foldl (fun a i => max a (f i)) a ∧
      ∀ i ∈ l, f i ≤ l.foldl (fun a i => max a (f i)) a := by
    intro l
    induction l with
    | nil => intro a; exact ⟨le_refl _, fun i h => by cases h⟩
    | cons x l ih =>
      intro a
      obtain ⟨h1, h2⟩ := ih (max a (f x))
      refine ⟨(le_max_left _ _).trans h1, fun i hi => ?_⟩
      rcases List.mem_cons.1 hi with rfl | hi
      · exact (le_max_right _ _).trans h1
      · exact h2 i hi
  exact (key _ _).2 i (List.mem_finRange i)

theorem cornerMax_le (f : Fin 8 → ℝ) (b : ℝ) (h : ∀ i, f i ≤ b) : cornerMax f ≤ b := by
  unfold cornerMax
  have key : ∀ (l : List (Fin 8)) (a : ℝ), a ≤ b → l.foldl (fun a i => max a (f i)) a ≤ b := by
    intro l
    induction l with
    | nil => intro a ha; exact ha
    | cons x l ih => intro a ha; exact ih _ (max_le ha (h x))
  exact key _ _ (h 0)

theorem le_cornerMin (f : Fin 8 → ℝ) (b : ℝ) (h : ∀ i, b ≤ f i) : b ≤ cornerMin f := by
  unfold cornerMin
  have key : ∀ (l : List (Fin 8)) (a : ℝ), b ≤ a → b ≤ l.foldl (fun a i => min a (f i)) a := by
    intro l
    induction l with
    | nil => intro a ha; exact ha
    | cons x l ih => intro a ha; exact ih _ (le_min ha (h x))
  exact key _ _ (h 0)

/-- The world point at a corner. -/
def worldCorner (lo hi : Vec3) (i : Fin 8) : Vec3 := fun k => if i.val.testBit k.val then hi k else lo k

theorem sensorFrameCorner_eq (R : Fin 3 → Vec3) (t lo hi : Vec3) (i : Fin 8) :
    sensorFrameCorner R t lo hi i = toSensorFrame R t (worldCorner lo hi i) := by
  funext r
  unfold sensorFrameCorner toSensorFrame worldCorner
  have e0 : ((0 : Fin 3) : Nat) = 0 := rfl
  have e1 : ((1 : Fin 3) : Nat) = 1 := rfl
  have e2 : ((2 : Fin 3) : Nat) = 2 := rfl
  rw [e0, e1, e2]
  split <;> split <;> split <;> ring

theorem exists_corner_idx (b : Fin 3 → Bool) : ∃ i : Fin 8, ∀ k : Fin 3, i.val.testBit k.val = b k := by
  revert b; decide +kernel

/-- An affine function of a point of the box is at most its value at some corner. -/
theorem affine_le_corner (R : Fin 3 → Vec3) (t lo hi p : Vec3) (hp : InCell lo hi p) (w : Vec3) :
    ∃ i : Fin 8, w 0 * toSensorFrame R t p 0 + w 1 * toSensorFrame R t p 1 + w 2 * toSensorFrame R t p 2 ≤
      w 0 * sensorFrameCorner R t lo hi i 0 + w 1 * sensorFrameCorner R t lo hi i 1
        + w 2 * sensorFrameCorner R t lo hi i 2 := by
  classical
  let B : Vec3 := fun k => w 0 * R 0 k + w 1 * R 1 k + w 2 * R 2 k
  obtain ⟨i, hi'⟩ := exists_corner_idx (fun k => if 0 ≤ B k then true else false)
  refine ⟨i, ?_⟩
  rw [sensorFrameCorner_eq]
  have hk : ∀ k, B k * p k ≤ B k * worldCorner lo hi i k := by
    intro k
    unfold worldCorner
    rw [hi' k]
    by_cases hB : 0 ≤ B k
    · simp only [hB, if_true]
      exact mul_le_mul_of_nonneg_left (hp k).2 hB
    · simp only [hB, if_false, Bool.false_eq_true]
      exact mul_le_mul_of_nonpos_left (hp k).1 (not_le.1 hB).le
  have h0 := hk 0
  have h1 := hk 1
  have h2 := hk 2
  simp only [B] at h0 h1 h2
  unfold toSensorFrame
  nlinarith [h0, h1, h2]

theorem depth_le_corner (R : Fin 3 → Vec3) (t lo hi p : Vec3) (hp : InCell lo hi p) :
    (∃ i, toSensorFrame R t p 2 ≤ sensorFrameCorner R t lo hi i 2) ∧
    (∃ i, sensorFrameCorner R t lo hi i 2 ≤ toSensorFrame R t p 2) := by
  obtain ⟨i, h⟩ := affine_le_corner R t lo hi p hp ![0, 0, 1]
  obtain ⟨j, h'⟩ := affine_le_corner R t lo hi p hp ![0, 0, -1]
  refine ⟨⟨i, ?_⟩, ⟨j, ?_⟩⟩
  · simpa using h
  · simpa using h'

/-- A quotient of affine functions whose denominator has one sign is at most its value at some corner. -/
theorem quotient_le_corner (R : Fin 3 → Vec3) (t lo hi p : Vec3) (hp : InCell lo hi p) (a : Fin 3) (ha : a = 0 ∨ a = 1)
    (f m : ℝ) (hz : ∀ i, 0 < sensorFrameCorner R t lo hi i 2)
    (hm : ∀ i, f * sensorFrameCorner R t lo hi i a / sensorFrameCorner R t lo hi i 2 ≤ m) :
    f * toSensorFrame R t p a / toSensorFrame R t p 2 ≤ m := by
  have hz' : 0 < toSensorFrame R t p 2 := by
    obtain ⟨j, hj⟩ := (depth_le_corner R t lo hi p hp).2
    exact lt_of_lt_of_le (hz j) hj
  rw [div_le_iff₀ hz']
  have hc : ∀ i, f * sensorFrameCorner R t lo hi i a - m * sensorFrameCorner R t lo hi i 2 ≤ 0 := by
    intro i
    have := hm i
    rw [div_le_iff₀ (hz i)] at this
    linarith
  rcases ha with rfl | rfl
  · obtain ⟨i, hi'⟩ := affine_le_corner R t lo hi p hp ![f, 0, -m]
    have := hc i
    simp at hi'
    linarith
  · obtain ⟨i, hi'⟩ := affine_le_corner R t lo hi p hp ![0, f, -m]
    have := hc i
    simp at hi'
    linarith

theorem linear_le_corner (R : Fin 3 → Vec3) (t lo hi p : Vec3) (hp : InCell lo hi p) (a : Fin 3) (ha : a = 0 ∨ a = 1)
    (f m : ℝ) (hm : ∀ i, f * sensorFrameCorner R t lo hi i a ≤ m) : f * toSensorFrame R t p a ≤ m := by
  rcases ha with rfl | rfl
  · obtain ⟨i, hi'⟩ := affine_le_corner R t lo hi p hp ![f, 0, 0]
    have := hm i
    simp at hi'
    linarith
  · obtain ⟨i, hi'⟩ := affine_le_corner R t lo hi p hp ![0, f, 0]
    have := hm i
    simp at hi'
    linarith

/-! ## Property: pinhole camera -/

/-- Projecting an unprojected pixel gives back its sensor coordinates, and unprojecting a projected point gives back the
point, for every depth at or beyond the clamping threshold of one micrometre. -/
theorem C59_pinhole_roundtrip (c : PinholeConfig) (hc : c.Valid) :
    (∀ s : SensorCoordinates, PinholeConfig.epsilon ≤ s.depth → c.cartesianToSensor (c.sensorToCartesian s) = s) ∧
    (∀ p : Vec3, PinholeConfig.epsilon ≤ p 2 → c.sensorToCartesian (c.cartesianToSensor p) = p) := by
  obtain ⟨_, _, hfx, hfy⟩ := hc
  have he : (0 : ℝ) < PinholeConfig.epsilon := by unfold PinholeConfig.epsilon; norm_num
  constructor
  · intro s hs
    obtain ⟨u, v, d⟩ := s
    simp only at hs
    have hd : 0 < d := lt_of_lt_of_le he hs
    unfold PinholeConfig.cartesianToSensor PinholeConfig.sensorToCartesian
    simp only [Matrix.cons_val_zero, Matrix.cons_val_one, Matrix.cons_val]
    have e : d * (1 / (c.fx * c.fy)) * (c.fx * c.fy) = d := by field_simp
    rw [e, max_eq_left hs]
    congr 1 <;> field_simp <;> ring
  · intro p hp
    have hd : 0 < p 2 := lt_of_lt_of_le he hp
    unfold PinholeConfig.cartesianToSensor PinholeConfig.sensorToCartesian
    simp only
    rw [max_eq_left hp]
    funext k
    fin_cases k
    · simp; field_simp; ring
    · simp; field_simp; ring
    · simp; field_simp

/-- A camera for the examples: 640 by 480 pixels. -/
noncomputable def exampleCamera : PinholeConfig := ⟨640, 480, 500, 500, 320, 240⟩

example : exampleCamera.Valid ∧ PinholeConfig.epsilon ≤ (⟨100, 200, 3⟩ : SensorCoordinates).depth ∧
    exampleCamera.cartesianToSensor (exampleCamera.sensorToCartesian ⟨100, 200, 3⟩) = ⟨100, 200, 3⟩ := by
  have hv : exampleCamera.Valid := by unfold PinholeConfig.Valid exampleCamera; norm_num
  have hd : PinholeConfig.epsilon ≤ (⟨100, 200, 3⟩ : SensorCoordinates).depth := by
    unfold PinholeConfig.epsilon; norm_num
  exact ⟨hv, hd, (C59_pinhole_roundtrip _ hv).1 _ hd⟩

/-- The frame change is the inverse of the sensor's pose: the world position of a point with sensor coordinates `s` is
`t + Rᵀ s` (the rows of the rotation matrix `R` are the sensor's axes in the world, `t` is its position), and mapping
that position into the sensor frame gives `s` back. -/
theorem C59_sensor_frame (R : Fin 3 → Vec3) (t p s : Vec3)
    (hR : ∀ a b : Fin 3, R a 0 * R b 0 + R a 1 * R b 1 + R a 2 * R b 2 = if a = b then 1 else 0)
    (hp : ∀ k, p k = t k + (R 0 k * s 0 + R 1 k * s 1 + R 2 k * s 2)) : toSensorFrame R t p = s := by
  funext r
  unfold toSensorFrame
  rw [hp 0, hp 1, hp 2]
  have e : R r 0 * (t 0 + (R 0 0 * s 0 + R 1 0 * s 1 + R 2 0 * s 2) - t 0) + R r 1 * (t 1 + (R 0 1 * s 0 + R 1 1 * s 1 + R 2 1 * s 2) - t 1)
      + R r 2 * (t 2 + (R 0 2 * s 0 + R 1 2 * s 1 + R 2 2 * s 2) - t 2)
      = (R r 0 * R 0 0 + R r 1 * R 0 1 + R r 2 * R 0 2) * s 0 + (R r 0 * R 1 0 + R r 1 * R 1 1 + R r 2 * R 1 2) * s 1
        + (R r 0 * R 2 0 + R r 1 * R 2 1 + R r 2 * R 2 2) * s 2 := by ring
  rw [e, hR r 0, hR r 1, hR r 2]
  fin_cases r <;> simp

example : toSensorFrame ![![0, 1, 0], ![-1, 0, 0], ![0, 0, 1]] ![1, 2, 3] ![1 - 5, 2 + 4, 3 + 6] = ![4, 5, 6] := by
  apply C59_sensor_frame
  · intro a b; fin_cases a <;> fin_cases b <;> simp
  · intro k; fin_cases k <;> simp <;> norm_num

/-- The projected box contains the projection of every point of the cell, for every pose. `_partial`: the cell must lie
entirely on one side of the plane at depth `kEpsilon` (`C59_pinhole_straddle_fails` shows why); the depth interval needs no
such condition, see `C59_pinhole_depth`. -/
theorem C59_pinhole_box_partial (c : PinholeConfig) (R : Fin 3 → Vec3) (t lo hi : Vec3)
    (hside : (∀ q, IsCorner lo hi q → PinholeConfig.epsilon ≤ toSensorFrame R t q 2) ∨
      (∀ q, IsCorner lo hi q → toSensorFrame R t q 2 ≤ PinholeConfig.epsilon)) (p : Vec3) (hp : InCell lo hi p) :
    (c.sensorBox R t lo hi).Contains (c.cartesianToSensor (toSensorFrame R t p)) ∧
      (c.sensorBox R t lo hi).lo.v ≤ (c.sensorBox R t lo hi).hi.v := by
  have he : (0 : ℝ) < PinholeConfig.epsilon := by unfold PinholeConfig.epsilon; norm_num
  have hcorner : ∀ i, IsCorner lo hi (worldCorner lo hi i) := by
    intro i k
    unfold worldCorner
    split
    · exact Or.inr rfl
    · exact Or.inl rfl
  obtain ⟨⟨j1, hj1⟩, ⟨j2, hj2⟩⟩ := depth_le_corner R t lo hi p hp
  have hd1 : (c.sensorBox R t lo hi).lo.depth ≤ toSensorFrame R t p 2 :=
    (cornerMin_le (fun i => (c.cartesianToSensor (sensorFrameCorner R t lo hi i)).depth) j2).trans hj2
  have hd2 : toSensorFrame R t p 2 ≤ (c.sensorBox R t lo hi).hi.depth :=
    hj1.trans (le_cornerMax (fun i => (c.cartesianToSensor (sensorFrameCorner R t lo hi i)).depth) j1)
  -- one image axis, with the sign of the bound handled by negating the focal length
  have axis : ∀ (a : Fin 3), (a = 0 ∨ a = 1) → ∀ f o m : ℝ,
      (∀ i, f * sensorFrameCorner R t lo hi i a / max (sensorFrameCorner R t lo hi i 2) PinholeConfig.epsilon + o ≤ m) →
      f * toSensorFrame R t p a / max (toSensorFrame R t p 2) PinholeConfig.epsilon + o ≤ m := by
    intro a ha f o m hm
    rcases hside with hs | hs
    · have hz : ∀ i, PinholeConfig.epsilon ≤ sensorFrameCorner R t lo hi i 2 := fun i => by
        rw [sensorFrameCorner_eq]; exact hs _ (hcorner i)
      have hzp : PinholeConfig.epsilon ≤ toSensorFrame R t p 2 := (hz j2).trans hj2
      rw [max_eq_left hzp]
      have := quotient_le_corner R t lo hi p hp a ha f (m - o) (fun i => lt_of_lt_of_le he (hz i)) (fun i => by
        have := hm i
        rw [max_eq_left (hz i)] at this
        linarith)
      linarith
    · have hz : ∀ i, sensorFrameCorner R t lo hi i 2 ≤ PinholeConfig.epsilon := fun i => by
        rw [sensorFrameCorner_eq]; exact hs _ (hcorner i)
      have hzp : toSensorFrame R t p 2 ≤ PinholeConfig.epsilon := hj1.trans (hz j1)
      rw [max_eq_right hzp]
      have := linear_le_corner R t lo hi p hp a ha f ((m - o) * PinholeConfig.epsilon) (fun i => by
        have := hm i
        rw [max_eq_right (hz i)] at this
        have h2 : f * sensorFrameCorner R t lo hi i a / PinholeConfig.epsilon ≤ m - o := by linarith
        rwa [div_le_iff₀ he] at h2)
      have h2 : f * toSensorFrame R t p a / PinholeConfig.epsilon ≤ m - o := by rwa [div_le_iff₀ he]
      linarith
  have up := axis
  have hu2 := axis 0 (Or.inl rfl) c.fx c.cx (c.sensorBox R t lo hi).hi.u
    (fun i => le_cornerMax (fun i => (c.cartesianToSensor (sensorFrameCorner R t lo hi i)).u) i)
  have hv2 := axis 1 (Or.inr rfl) c.fy c.cy (c.sensorBox R t lo hi).hi.v
    (fun i => le_cornerMax (fun i => (c.cartesianToSensor (sensorFrameCorner R t lo hi i)).v) i)
  have hu1 := axis 0 (Or.inl rfl) (-c.fx) (-c.cx) (-(c.sensorBox R t lo hi).lo.u) (fun i => by
    have := cornerMin_le (fun i => (c.cartesianToSensor (sensorFrameCorner R t lo hi i)).u) i
    change (c.sensorBox R t lo hi).lo.u ≤ c.fx * sensorFrameCorner R t lo hi i 0 /
      max (sensorFrameCorner R t lo hi i 2) PinholeConfig.epsilon + c.cx at this
    rw [neg_mul, neg_div]; linarith)
  have hv1 := axis 1 (Or.inr rfl) (-c.fy) (-c.cy) (-(c.sensorBox R t lo hi).lo.v) (fun i => by
    have := cornerMin_le (fun i => (c.cartesianToSensor (sensorFrameCorner R t lo hi i)).v) i
    change (c.sensorBox R t lo hi).lo.v ≤ c.fy * sensorFrameCorner R t lo hi i 1 /
      max (sensorFrameCorner R t lo hi i 2) PinholeConfig.epsilon + c.cy at this
    rw [neg_mul, neg_div]; linarith)
  rw [neg_mul, neg_div] at hu1 hv1
  have hv1' : (c.sensorBox R t lo hi).lo.v ≤ (c.cartesianToSensor (toSensorFrame R t p)).v := by
    show _ ≤ c.fy * toSensorFrame R t p 1 / max (toSensorFrame R t p 2) PinholeConfig.epsilon + c.cy
    linarith
  have hord : (c.sensorBox R t lo hi).lo.v ≤ (c.sensorBox R t lo hi).hi.v := hv1'.trans hv2
  refine ⟨⟨?_, hu2, hd1, hd2, ?_⟩, hord⟩
  · show _ ≤ c.fx * toSensorFrame R t p 0 / max (toSensorFrame R t p 2) PinholeConfig.epsilon + c.cx
    linarith
  · rw [if_neg (not_lt.2 hord)]
    exact ⟨hv1', hv2⟩

/-- The depth interval of the projected box contains the depth of every point of the cell, for every pose. -/
theorem C59_pinhole_depth (c : PinholeConfig) (R : Fin 3 → Vec3) (t lo hi p : Vec3) (hp : InCell lo hi p) :
    (c.sensorBox R t lo hi).lo.depth ≤ (c.cartesianToSensor (toSensorFrame R t p)).depth ∧
      (c.cartesianToSensor (toSensorFrame R t p)).depth ≤ (c.sensorBox R t lo hi).hi.depth := by
  obtain ⟨⟨j1, hj1⟩, ⟨j2, hj2⟩⟩ := depth_le_corner R t lo hi p hp
  exact ⟨(cornerMin_le (fun i => (c.cartesianToSensor (sensorFrameCorner R t lo hi i)).depth) j2).trans hj2,
    hj1.trans (le_cornerMax (fun i => (c.cartesianToSensor (sensorFrameCorner R t lo hi i)).depth) j1)⟩

/-- Putting the pieces together for a pinhole camera and the continuous ray model: if the intersector declares a cell in
front of the camera fully unobserved, the update of every point of the cell is zero. `_partial`: the conditions of
`C41_unobserved_partial` on the pixels, and cells that do not straddle the camera plane. -/
theorem C59_pinhole_skip_partial (cam : PinholeConfig) (R : Fin 3 → Vec3) (t lo hi : Vec3)
    (hfront : ∀ q, IsCorner lo hi q → PinholeConfig.epsilon ≤ toSensorFrame R t q 2)
    (bounds : RangeBounds) (cfg : ProjectiveIntegratorConfig) (c : ContinuousRayConfig)
    (hr : (rayIntersector bounds PinholeConfig.grid cfg c).Ok) (hpx : PixelsOk bounds.image cfg.minRange)
    (h : (rayIntersector bounds PinholeConfig.grid cfg c).determineUpdateType false (cam.sensorBox R t lo hi)
      = some .fullyUnobserved) (p : Vec3) (hp : InCell lo hi p) :
    projectiveUpdate cfg (c.computeUpdate PinholeConfig.grid bounds.image) (cam.cartesianToSensor (toSensorFrame R t p))
      = some 0 := by
  obtain ⟨h1, h2⟩ := C59_pinhole_box_partial cam R t lo hi (Or.inl hfront) p hp
  exact C41_ray_unobserved_partial bounds PinholeConfig.grid cfg c hr hpx _ (fun hw => absurd hw (not_lt.2 h2)) h _ h1

/-- The identity rotation. -/
def idRot : Fin 3 → Vec3 := fun r k => if r = k then 1 else 0

/-- The hypotheses of `C59_pinhole_box_partial` are met by a cell in front of the camera. -/
example : (exampleCamera.sensorBox idRot ![0, 0, 0] ![-1, -1, 2] ![1, 1, 4]).Contains
    (exampleCamera.cartesianToSensor (toSensorFrame idRot ![0, 0, 0] ![1 / 2, 0, 3])) := by
  refine (C59_pinhole_box_partial exampleCamera idRot ![0, 0, 0] ![-1, -1, 2] ![1, 1, 4] (Or.inl ?_) _ ?_).1
  · intro q hq
    have := hq 2
    unfold toSensorFrame idRot PinholeConfig.epsilon
    simp at this ⊢
    rcases this with h | h <;> rw [h] <;> norm_num
  · intro k
    fin_cases k <;> norm_num

theorem vec_zero {α : Type} (a b c : α) : (![a, b, c] : Fin 3 → α) 0 = a := rfl
theorem vec_one {α : Type} (a b c : α) : (![a, b, c] : Fin 3 → α) 1 = b := rfl
theorem vec_two {α : Type} (a b c : α) : (![a, b, c] : Fin 3 → α) 2 = c := rfl

theorem forall_corner (lo hi : Vec3) (P : Vec3 → Prop)
    (h : ∀ x y z, (x = lo 0 ∨ x = hi 0) → (y = lo 1 ∨ y = hi 1) → (z = lo 2 ∨ z = hi 2) → P ![x, y, z]) (i : Fin 8) :
    P (worldCorner lo hi i) := by
  have e : worldCorner lo hi i = ![worldCorner lo hi i 0, worldCorner lo hi i 1, worldCorner lo hi i 2] := by
    funext k; fin_cases k <;> rfl
  rw [e]
  have hc : ∀ k, worldCorner lo hi i k = lo k ∨ worldCorner lo hi i k = hi k := by
    intro k
    unfold worldCorner
    split
    · exact Or.inr rfl
    · exact Or.inl rfl
  exact h _ _ _ (hc 0) (hc 1) (hc 2)

/-- A cell that straddles the camera plane: a point in front of the camera projects outside the projected box. The pose is a
proper rotation. -/
theorem C59_pinhole_straddle_fails : ∃ (c : PinholeConfig) (R : Fin 3 → Vec3) (t lo hi p : Vec3), c.Valid ∧
    (∀ j k, R 0 j * R 0 k + R 1 j * R 1 k + R 2 j * R 2 k = if j = k then 1 else 0) ∧ InCell lo hi p ∧
    0 < toSensorFrame R t p 2 ∧
    ¬ (c.sensorBox R t lo hi).Contains (c.cartesianToSensor (toSensorFrame R t p)) := by
  let R : Fin 3 → Vec3 := ![![-3 / 5, 0, -4 / 5], ![0, -1, 0], ![-4 / 5, 0, 3 / 5]]
  have hR : ∀ x y z : ℝ, toSensorFrame R ![0, 0, 0] ![x, y, z] = ![-3 / 5 * x - 4 / 5 * z, -y, -4 / 5 * x + 3 / 5 * z] := by
    intro x y z
    funext r
    fin_cases r <;> simp only [toSensorFrame, R, vec_zero, vec_one, vec_two, Fin.mk_zero, Fin.mk_one, Fin.reduceFinMk] <;> ring
  refine ⟨⟨640, 480, 1, 1, 0, 0⟩, R, ![0, 0, 0], ![-7 / 5, 0, -1 / 5], ![11 / 10, 5 / 2, 23 / 10],
    ![-31 / 40, 0, -1 / 5], ?_, ?_, ?_, ?_, ?_⟩
  · unfold PinholeConfig.Valid; norm_num
  · intro j k
    fin_cases j <;> fin_cases k <;>
      simp only [R, vec_zero, vec_one, vec_two, Fin.mk_zero, Fin.mk_one, Fin.reduceFinMk] <;>
      first
      | rw [if_pos trivial]; norm_num
      | rw [if_neg (by decide)]; norm_num
  · intro k
    fin_cases k <;> norm_num
  · rw [hR, vec_two]; norm_num
  · intro h
    have h2 := h.2.1
    have hmax : ((⟨640, 480, 1, 1, 0, 0⟩ : PinholeConfig).sensorBox R ![0, 0, 0] ![-7 / 5, 0, -1 / 5]
        ![11 / 10, 5 / 2, 23 / 10]).hi.u ≤ 1 := by
      refine cornerMax_le (fun i => ((⟨640, 480, 1, 1, 0, 0⟩ : PinholeConfig).cartesianToSensor
        (sensorFrameCorner R ![0, 0, 0] ![-7 / 5, 0, -1 / 5] ![11 / 10, 5 / 2, 23 / 10] i)).u) 1 ?_
      intro i
      rw [sensorFrameCorner_eq]
      refine forall_corner _ _ (fun q => ((⟨640, 480, 1, 1, 0, 0⟩ : PinholeConfig).cartesianToSensor
        (toSensorFrame R ![0, 0, 0] q)).u ≤ 1) ?_ i
      intro x y z hx hy hz
      rw [hR]
      simp only [PinholeConfig.cartesianToSensor, vec_zero, vec_two, PinholeConfig.epsilon] at hx hz ⊢
      rw [add_zero, one_mul, div_le_one (lt_of_lt_of_le (by norm_num) (le_max_right _ _))]
      rcases hx with rfl | rfl <;> rcases hz with rfl | rfl <;> norm_num
    have hp : ((⟨640, 480, 1, 1, 0, 0⟩ : PinholeConfig).cartesianToSensor
        (toSensorFrame R ![0, 0, 0] ![-31 / 40, 0, -1 / 5])).u = 5 / 4 := by
      rw [hR]
      simp only [PinholeConfig.cartesianToSensor, vec_zero, vec_two, PinholeConfig.epsilon]
      norm_num
    rw [hp] at h2
    linarith

/-! ## Property: spherical projection -/

/-- `x` lies in an interval of angles; an interval whose lower end is above its upper end runs through `±π`. -/
def InAngles (I : Option ℝ × Option ℝ) (x : ℝ) : Prop :=
  ∃ lo hi, I = (some lo, some hi) ∧ if hi < lo then lo ≤ x ∨ x ≤ hi else lo ≤ x ∧ x ≤ hi

/-- The polynomial is increasing on the interval it is used on. -/
theorem approxAtan_strictMono : StrictMonoOn approxAtan (Set.Icc (-1) 1) := by
  have e : approxAtan = fun x : ℝ => 99997726 / 100000000 * x + (-33262347 / 100000000) * x ^ 3 +
      19354346 / 100000000 * x ^ 5 + (-11643287 / 100000000) * x ^ 7 + 5265332 / 100000000 * x ^ 9 +
      (-1172120 / 100000000) * x ^ 11 := by
    funext x; unfold approxAtan; ring
  have hder : ∀ x : ℝ, HasDerivAt approxAtan (99997726 / 100000000 + (-33262347 / 100000000) * (3 * x ^ 2) +
      19354346 / 100000000 * (5 * x ^ 4) + (-11643287 / 100000000) * (7 * x ^ 6) + 5265332 / 100000000 * (9 * x ^ 8) +
      (-1172120 / 100000000) * (11 * x ^ 10)) x := by
    intro x
    rw [e]
    have h1 := (hasDerivAt_id' x).const_mul (99997726 / 100000000 : ℝ)
    rw [mul_one] at h1
    have h3 := (hasDerivAt_pow 3 x).const_mul (-33262347 / 100000000 : ℝ)
    have h5 := (hasDerivAt_pow 5 x).const_mul (19354346 / 100000000 : ℝ)
    have h7 := (hasDerivAt_pow 7 x).const_mul (-11643287 / 100000000 : ℝ)
    have h9 := (hasDerivAt_pow 9 x).const_mul (5265332 / 100000000 : ℝ)
    have h11 := (hasDerivAt_pow 11 x).const_mul (-1172120 / 100000000 : ℝ)
    have := ((((h1.add h3).add h5).add h7).add h9).add h11
    exact this
  · apply strictMonoOn_of_deriv_pos (convex_Icc _ _)
    · exact fun x _ => (hder x).continuousAt.continuousWithinAt
    · intro x hx
      rw [interior_Icc] at hx
      rw [(hder x).deriv]
      have hq0 : 0 ≤ x ^ 2 := sq_nonneg x
      have hq1 : x ^ 2 ≤ 1 := by nlinarith [hx.1, hx.2]
      have p2 : x ^ 4 = x ^ 2 * x ^ 2 := by ring
      have p3 : x ^ 6 = x ^ 2 * x ^ 2 * x ^ 2 := by ring
      have p4 : x ^ 8 = x ^ 2 * x ^ 2 * (x ^ 2 * x ^ 2) := by ring
      have p5 : x ^ 10 = x ^ 2 * x ^ 2 * (x ^ 2 * x ^ 2) * x ^ 2 := by ring
      rw [p2, p3, p4, p5]
      generalize x ^ 2 = q at hq0 hq1
      have g1 : 0 ≤ q * q * (19354346 / 100000000 * 5 - 11643287 / 100000000 * 7 * q) :=
        mul_nonneg (mul_nonneg hq0 hq0) (by linarith)
      have g2 : 0 ≤ q * q * (q * q) * (5265332 / 100000000 * 9 - 1172120 / 100000000 * 11 * q) :=
        mul_nonneg (mul_nonneg (mul_nonneg hq0 hq0) (mul_nonneg hq0 hq0)) (by linarith)
      linarith

theorem approxAtan_mono {a b : ℝ} (ha : -1 ≤ a) (hab : a ≤ b) (hb : b ≤ 1) : approxAtan a ≤ approxAtan b :=
  approxAtan_strictMono.monotoneOn ⟨ha, hab.trans hb⟩ ⟨ha.trans hab, hb⟩ hab

theorem approxAtan_lt {a b : ℝ} (ha : -1 ≤ a) (hab : a < b) (hb : b ≤ 1) : approxAtan a < approxAtan b :=
  approxAtan_strictMono ⟨ha, hab.le.trans hb⟩ ⟨ha.trans hab.le, hb⟩ hab

theorem approxAtan_zero : approxAtan 0 = 0 := by unfold approxAtan; simp

theorem approxAtan_neg (x : ℝ) : approxAtan (-x) = -approxAtan x := by unfold approxAtan; ring

theorem approxAtan_one : approxAtan 1 ≤ Real.pi / 4 ∧ 78 / 100 < approxAtan 1 := by
  have := Real.pi_gt_d6
  unfold approxAtan
  constructor
  · norm_num at *; linarith
  · norm_num

/-- The angle as a function of the slope, for directions with positive `x`. -/
noncomputable def slopeAngle (s : ℝ) : ℝ :=
  if 1 < |s| then (if 0 ≤ 1 / s then Real.pi / 2 else -(Real.pi / 2)) - approxAtan (1 / s) else approxAtan s

theorem approxAtan2_front (y x : ℝ) (hx : 0 < x) : approxAtan2 y x = some (slopeAngle (y / x)) := by
  unfold approxAtan2 slopeAngle
  rw [if_neg (fun h => by linarith [h.2])]
  have h1 : |x| < |y| ↔ 1 < |y / x| := by
    rw [abs_div, abs_of_pos hx, one_lt_div hx]
  have h2 : 1 / (y / x) = x / y := by rw [one_div, inv_div]
  simp only [if_neg (not_lt.2 hx.le), h2]
  by_cases hs : 1 < |y / x|
  · rw [if_pos (h1.2 hs), if_pos (h1.2 hs), if_pos hs]
    have hy : y ≠ 0 := by rintro rfl; simp at hs; linarith
    have h3 : (0 < x / y ∨ (x = 0 ∧ 0 < y)) ↔ 0 ≤ x / y := by
      constructor
      · rintro (h | h)
        · exact h.le
        · exact absurd h.1 hx.ne'
      · intro h
        exact Or.inl (lt_of_le_of_ne h (div_ne_zero hx.ne' hy).symm)
    simp only [h3]
  · rw [if_neg (fun h => hs (h1.1 h)), if_neg (fun h => hs (h1.1 h)), if_neg hs]

theorem slopeAngle_high {s : ℝ} (h : 1 < s) : slopeAngle s = Real.pi / 2 - approxAtan (1 / s) ∧ 0 < 1 / s ∧ 1 / s < 1 := by
  have hs : 0 < s := by linarith
  have h1 : 0 < 1 / s := by positivity
  unfold slopeAngle
  rw [abs_of_pos hs, if_pos h, if_pos h1.le]
  exact ⟨rfl, h1, by rw [div_lt_one hs]; exact h⟩

theorem slopeAngle_low {s : ℝ} (h : s < -1) : slopeAngle s = -(Real.pi / 2) - approxAtan (1 / s) ∧ 1 / s < 0 ∧ -1 < 1 / s := by
  have hs : s < 0 := by linarith
  have h1 : 1 / s < 0 := one_div_neg.2 hs
  unfold slopeAngle
  rw [abs_of_neg hs, if_pos (by linarith), if_neg (not_le.2 h1)]
  refine ⟨rfl, h1, ?_⟩
  rw [lt_div_iff_of_neg hs]; linarith

theorem slopeAngle_mid {s : ℝ} (h1 : -1 ≤ s) (h2 : s ≤ 1) : slopeAngle s = approxAtan s := by
  unfold slopeAngle
  rw [if_neg (not_lt.2 (abs_le.2 ⟨h1, h2⟩))]

theorem slopeAngle_lt {s t : ℝ} (h : s < t) : slopeAngle s < slopeAngle t := by
  have hp1 := approxAtan_one
  have hpi := Real.pi_pos
  have hneg1 : approxAtan (-1) = -approxAtan 1 := approxAtan_neg 1
  rcases lt_or_ge s (-1) with hs | hs
  · obtain ⟨e1, a1, b1⟩ := slopeAngle_low hs
    have m1 : approxAtan (-1) < approxAtan (1 / s) := approxAtan_lt (le_refl _) b1 (by linarith)
    rcases lt_or_ge t (-1) with ht | ht
    · obtain ⟨e2, a2, b2⟩ := slopeAngle_low ht
      have : 1 / t < 1 / s := one_div_lt_one_div_of_neg_of_lt (by linarith) h
      have := approxAtan_lt b2.le this (by linarith)
      rw [e1, e2]; linarith
    · rcases le_or_gt t 1 with ht1 | ht1
      · rw [e1, slopeAngle_mid ht ht1]
        have := approxAtan_mono (le_refl _) ht ht1
        linarith
      · obtain ⟨e2, a2, b2⟩ := slopeAngle_high ht1
        have := approxAtan_lt (by linarith) b2 (le_refl 1)
        rw [e1, e2]; linarith
  · rcases le_or_gt s 1 with hs1 | hs1
    · rw [slopeAngle_mid hs hs1]
      have m1 := approxAtan_mono hs hs1 (le_refl 1)
      rcases le_or_gt t 1 with ht1 | ht1
      · rw [slopeAngle_mid (hs.trans h.le) ht1]
        exact approxAtan_lt hs h ht1
      · obtain ⟨e2, a2, b2⟩ := slopeAngle_high ht1
        have := approxAtan_lt (by linarith) b2 (le_refl 1)
        rw [e2]; linarith
    · obtain ⟨e1, a1, b1⟩ := slopeAngle_high hs1
      obtain ⟨e2, a2, b2⟩ := slopeAngle_high (hs1.trans h)
      have : 1 / t < 1 / s := one_div_lt_one_div_of_lt (by linarith) h
      have := approxAtan_lt (by linarith) this b1.le
      rw [e1, e2]; linarith

theorem slopeAngle_mono {s t : ℝ} (h : s ≤ t) : slopeAngle s ≤ slopeAngle t := by
  rcases h.lt_or_eq with h | h
  · exact (slopeAngle_lt h).le
  · rw [h]

theorem slopeAngle_bound (s : ℝ) : -(Real.pi / 2) ≤ slopeAngle s ∧ slopeAngle s ≤ Real.pi / 2 := by
  have hpi := Real.pi_pos
  have hp1 := approxAtan_one
  have hneg1 : approxAtan (-1) = -approxAtan 1 := approxAtan_neg 1
  have hz := approxAtan_zero
  rcases lt_or_ge s (-1) with hs | hs
  · obtain ⟨e1, a1, b1⟩ := slopeAngle_low hs
    have m1 : approxAtan (-1) ≤ approxAtan (1 / s) := approxAtan_mono (le_refl _) b1.le (by linarith)
    have m2 : approxAtan (1 / s) ≤ approxAtan 0 := approxAtan_mono b1.le a1.le (by norm_num)
    rw [e1]; constructor <;> linarith
  · rcases le_or_gt s 1 with hs1 | hs1
    · rw [slopeAngle_mid hs hs1]
      have m1 := approxAtan_mono hs hs1 (le_refl 1)
      have m2 := approxAtan_mono (le_refl _) hs hs1
      constructor <;> linarith
    · obtain ⟨e1, a1, b1⟩ := slopeAngle_high hs1
      have m1 := approxAtan_mono (by linarith) b1.le (le_refl 1)
      have m2 : approxAtan 0 ≤ approxAtan (1 / s) := approxAtan_mono (by norm_num) a1.le b1.le
      rw [e1]; constructor <;> linarith

theorem slopeAngle_bound_lt (s : ℝ) : -(Real.pi / 2) < slopeAngle s ∧ slopeAngle s < Real.pi / 2 :=
  ⟨lt_of_le_of_lt (slopeAngle_bound (s - 1)).1 (slopeAngle_lt (by linarith)), lt_of_lt_of_le (slopeAngle_lt (by linarith : s < s + 1)) (slopeAngle_bound _).2⟩

/-- The image coordinates of the point `(x, y, z)` in the sensor frame. -/
theorem idRot_frame (x y z : ℝ) : toSensorFrame idRot ![0, 0, 0] ![x, y, z] = ![x, y, z] := by
  funext r
  fin_cases r <;> simp [toSensorFrame, idRot]

/-- The elevation of a point in front of the sensor. -/
theorem elevation_front (x y z : ℝ) (h : 0 < x * x + y * y) (c : ℝ × ℝ) (hc : sphericalToImage ![x, y, z] = some c) :
    c.1 = slopeAngle (z / Real.sqrt (x * x + y * y)) := by
  unfold sphericalToImage at hc
  simp only [vec_zero, vec_one, vec_two] at hc
  rw [approxAtan2_front _ _ (Real.sqrt_pos.2 h)] at hc
  simp only [Option.bind_eq_bind, Option.bind_some, Option.pure_def] at hc
  cases h1 : approxAtan2 y x with
  | none => rw [h1] at hc; cases hc
  | some v =>
    rw [h1] at hc
    simp only [Option.bind_some, Option.some.injEq] at hc
    rw [← hc]

/-- The elevation interval computed from the corners misses points: a cell two metres wide, one metre in front of and one
metre above the lidar, seen steeply; its point in the middle of the nearest upper edge is higher in the image than all
corners. -/
theorem C59_spherical_elevation_fails : ∃ (lo hi p : Vec3) (corners : Fin 8 → ℝ × ℝ) (e a : ℝ),
    (∀ i, sphericalToImage (sensorFrameCorner idRot ![0, 0, 0] lo hi i) = some (corners i)) ∧ InCell lo hi p ∧
    sphericalToImage (toSensorFrame idRot ![0, 0, 0] p) = some (e, a) ∧ ¬ InAngles (sphericalImageBox corners).1 e := by
  have hsome : ∀ q : Vec3, 0 < q 0 → ∃ c, sphericalToImage q = some c := by
    intro q hq
    unfold sphericalToImage
    rw [approxAtan2_front _ _ hq, approxAtan2_front _ _ (Real.sqrt_pos.2 (by nlinarith [mul_self_nonneg (q 1)]))]
    exact ⟨_, rfl⟩
  have hc : ∀ i, ∃ c, sphericalToImage (sensorFrameCorner idRot ![0, 0, 0] ![1, -1, 1] ![3, 1, 3] i) = some c := by
    intro i
    refine hsome _ ?_
    rw [sensorFrameCorner_eq]
    refine forall_corner _ _ (fun q => 0 < toSensorFrame idRot ![0, 0, 0] q 0) ?_ i
    intro x y z hx _ _
    rw [idRot_frame]
    simp only [vec_zero] at hx ⊢
    rcases hx with rfl | rfl <;> norm_num
  choose corners hcorners using hc
  obtain ⟨⟨e, a⟩, hea⟩ := hsome ![1, 0, 3] (by norm_num)
  refine ⟨![1, -1, 1], ![3, 1, 3], ![1, 0, 3], corners, e, a, hcorners, ?_, by rw [idRot_frame]; exact hea, ?_⟩
  · intro k
    fin_cases k <;> norm_num
  have he := elevation_front 1 0 3 (by norm_num) _ hea
  have hsq : Real.sqrt (1 * 1 + 0 * 0) = 1 := by norm_num
  rw [hsq] at he
  simp only at he
  have hpi := Real.pi_gt_three
  -- all corners have an elevation of at most 1.1 rad
  have h14 : (7 / 5 : ℝ) ≤ Real.sqrt 2 := Real.le_sqrt_of_sq_le (by norm_num)
  have hcorner : ∀ i, (corners i).1 ≤ slopeAngle (15 / 7) := by
    intro i
    have h := hcorners i
    rw [sensorFrameCorner_eq] at h
    refine forall_corner ![1, -1, 1] ![3, 1, 3] (fun q => ∀ c : ℝ × ℝ, sphericalToImage (toSensorFrame idRot ![0, 0, 0] q) =
      some c → c.1 ≤ slopeAngle (15 / 7)) ?_ i (corners i) h
    intro x y z hx hy hz c hc
    rw [idRot_frame] at hc
    simp only [vec_zero, vec_one, vec_two] at hx hy hz
    have hxx : 1 ≤ x * x := by rcases hx with rfl | rfl <;> norm_num
    have hyy : y * y = 1 := by rcases hy with rfl | rfl <;> norm_num
    have hzz : z ≤ 3 := by rcases hz with rfl | rfl <;> norm_num
    rw [elevation_front x y z (by linarith) c hc]
    apply slopeAngle_mono
    have hs : 7 / 5 ≤ Real.sqrt (x * x + y * y) := h14.trans (Real.sqrt_le_sqrt (by linarith))
    rw [div_le_iff₀ (by linarith)]
    linarith
  have hlt : slopeAngle (15 / 7) < e := by
    rw [he]
    obtain ⟨e1, _, _⟩ := slopeAngle_high (s := 15 / 7) (by norm_num)
    obtain ⟨e2, _, _⟩ := slopeAngle_high (s := 3 / 1) (by norm_num)
    rw [e1, e2]
    unfold approxAtan
    norm_num
  have hb : ∀ i, -(Real.pi / 2) ≤ (corners i).1 ∧ (corners i).1 ≤ Real.pi / 2 := by
    intro i
    have h := hcorners i
    rw [sensorFrameCorner_eq] at h
    refine forall_corner ![1, -1, 1] ![3, 1, 3] (fun q => ∀ c : ℝ × ℝ, sphericalToImage (toSensorFrame idRot ![0, 0, 0] q) =
      some c → -(Real.pi / 2) ≤ c.1 ∧ c.1 ≤ Real.pi / 2) ?_ i (corners i) h
    intro x y z hx hy hz c hc
    rw [idRot_frame] at hc
    simp only [vec_zero, vec_one, vec_two] at hx hy hz
    have hxx : 1 ≤ x * x := by rcases hx with rfl | rfl <;> norm_num
    rw [elevation_front x y z (by nlinarith [mul_self_nonneg y]) c hc]
    exact slopeAngle_bound _
  rintro ⟨l, h, hI, hin⟩
  unfold sphericalImageBox angleInterval at hI
  simp only at hI
  have c1 := cornerMax_le (fun i => (corners i).1) _ (fun i => (hb i).2)
  have c2 := le_cornerMin (fun i => (corners i).1) _ (fun i => (hb i).1)
  rw [if_neg (by rintro ⟨_, hh⟩; linarith)] at hI
  simp only [Prod.mk.injEq, Option.some.injEq] at hI
  have hmx := cornerMax_le (fun i => (corners i).1) _ hcorner
  have hmn := (cornerMin_le (fun i => (corners i).1) 0).trans (le_cornerMax (fun i => (corners i).1) 0)
  rw [← hI.1, ← hI.2, if_neg (not_lt.2 hmn)] at hin
  linarith [hin.2]

/-- The azimuth interval of a cell above the lidar, on its vertical axis, misses a quarter of the circle: the corners lie in
all four quadrants, which is taken for an interval through `±π`. -/
theorem C59_spherical_axis_fails : ∃ (lo hi p : Vec3) (corners : Fin 8 → ℝ × ℝ) (e a : ℝ),
    (∀ i, sphericalToImage (sensorFrameCorner idRot ![0, 0, 0] lo hi i) = some (corners i)) ∧ InCell lo hi p ∧
    sphericalToImage (toSensorFrame idRot ![0, 0, 0] p) = some (e, a) ∧ ¬ InAngles (sphericalImageBox corners).2 a := by
  have hp1 := approxAtan_one
  have hpi := Real.pi_gt_three
  have hpi4 := Real.pi_lt_d2
  have hneg1 : approxAtan (-1) = -approxAtan 1 := approxAtan_neg 1
  have az : ∀ x y : ℝ, (x = 1 ∨ x = -1) → (y = 1 ∨ y = -1) → approxAtan2 y x =
      some (if 0 < x then y * approxAtan 1 else y * (Real.pi - approxAtan 1)) := by
    intro x y hx hy
    unfold approxAtan2
    rcases hx with rfl | rfl <;> rcases hy with rfl | rfl <;> norm_num [hneg1] <;> ring
  have el : ∀ x y z : ℝ, 0 < x * x + y * y → ∃ v, approxAtan2 z (Real.sqrt (x * x + y * y)) = some v := fun x y z h =>
    ⟨_, approxAtan2_front _ _ (Real.sqrt_pos.2 h)⟩
  have hc : ∀ i, ∃ c, sphericalToImage (sensorFrameCorner idRot ![0, 0, 0] ![-1, -1, 1] ![1, 1, 3] i) = some c := by
    intro i
    rw [sensorFrameCorner_eq]
    refine forall_corner _ _ (fun q => ∃ c, sphericalToImage (toSensorFrame idRot ![0, 0, 0] q) = some c) ?_ i
    intro x y z hx hy _
    rw [idRot_frame]
    simp only [vec_zero, vec_one, sphericalToImage, vec_two] at hx hy ⊢
    obtain ⟨v, hv⟩ := el x y z (by rcases hx with rfl | rfl <;> nlinarith [mul_self_nonneg y])
    rw [hv, az x y hx.symm hy.symm]
    exact ⟨_, rfl⟩
  choose corners hcorners using hc
  -- the azimuth of a corner
  have haz : ∀ i : Fin 8, ∀ x y z : ℝ, worldCorner ![-1, -1, 1] ![1, 1, 3] i = ![x, y, z] → (x = 1 ∨ x = -1) →
      (y = 1 ∨ y = -1) → (corners i).2 = if 0 < x then y * approxAtan 1 else y * (Real.pi - approxAtan 1) := by
    intro i x y z hw hx hy
    have h := hcorners i
    rw [sensorFrameCorner_eq, hw, idRot_frame] at h
    unfold sphericalToImage at h
    simp only [vec_zero, vec_one, vec_two] at h
    obtain ⟨v, hv⟩ := el x y z (by rcases hx with rfl | rfl <;> nlinarith [mul_self_nonneg y])
    rw [hv, az x y hx hy] at h
    simp only [Option.bind_eq_bind, Option.bind_some, Option.pure_def, Option.some.injEq] at h
    rw [← h]
  obtain ⟨v, hv⟩ := el 1 0 2 (by norm_num)
  refine ⟨![-1, -1, 1], ![1, 1, 3], ![1, 0, 2], corners, v, 0, hcorners, ?_, ?_, ?_⟩
  · intro k
    fin_cases k <;> norm_num
  · rw [idRot_frame]
    unfold sphericalToImage
    simp only [vec_zero, vec_one, vec_two]
    rw [hv, approxAtan2_front _ _ (by norm_num)]
    simp only [Option.bind_eq_bind, Option.bind_some, Option.pure_def, zero_div]
    rw [slopeAngle_mid (by norm_num) (by norm_num), approxAtan_zero]
  · have hall : ∀ i, (0 < (corners i).2 → 78 / 100 ≤ (corners i).2) ∧ (¬ 0 < (corners i).2 → (corners i).2 ≤ -(78 / 100)) := by
      intro i
      have e : worldCorner ![-1, -1, 1] ![1, 1, 3] i = ![worldCorner ![-1, -1, 1] ![1, 1, 3] i 0,
          worldCorner ![-1, -1, 1] ![1, 1, 3] i 1, worldCorner ![-1, -1, 1] ![1, 1, 3] i 2] := by
        funext k; fin_cases k <;> rfl
      have hx : worldCorner ![-1, -1, 1] ![1, 1, 3] i 0 = 1 ∨ worldCorner ![-1, -1, 1] ![1, 1, 3] i 0 = -1 := by
        unfold worldCorner
        split
        · exact Or.inl rfl
        · exact Or.inr rfl
      have hy : worldCorner ![-1, -1, 1] ![1, 1, 3] i 1 = 1 ∨ worldCorner ![-1, -1, 1] ![1, 1, 3] i 1 = -1 := by
        unfold worldCorner
        split
        · exact Or.inl rfl
        · exact Or.inr rfl
      rw [haz i _ _ _ e hx hy]
      rcases hx with hx | hx <;> rcases hy with hy | hy <;> rw [hx, hy] <;> norm_num <;> constructor <;> intro h <;>
        linarith
    have e0 : (corners 0).2 = -1 * (Real.pi - approxAtan 1) := by
      rw [haz 0 (-1) (-1) 1 (by funext k; fin_cases k <;> rfl) (Or.inr rfl) (Or.inr rfl), if_neg (by norm_num)]
    have e2 : (corners 2).2 = 1 * (Real.pi - approxAtan 1) := by
      rw [haz 2 (-1) 1 1 (by funext k; fin_cases k <;> rfl) (Or.inr rfl) (Or.inl rfl), if_neg (by norm_num)]
    have hwrap : Real.pi < cornerMax (fun i => (corners i).2) - cornerMin (fun i => (corners i).2) := by
      have h1 := le_cornerMax (fun i => (corners i).2) 2
      have h2 := cornerMin_le (fun i => (corners i).2) 0
      simp only [e0, e2] at h1 h2
      linarith
    rintro ⟨l, h, hI, hin⟩
    unfold sphericalImageBox angleInterval at hI
    simp only at hI
    rw [if_pos ⟨trivial, hwrap⟩] at hI
    simp only [Prod.mk.injEq] at hI
    obtain ⟨hl, hh⟩ := hI
    obtain ⟨g, hg⟩ : ∃ g : Fin 8 → ℝ, g = fun i => (corners i).2 := ⟨_, rfl⟩
    have hall' : ∀ i, (0 < g i → 78 / 100 ≤ g i) ∧ (¬ 0 < g i → g i ≤ -(78 / 100)) := by rw [hg]; exact hall
    have k1 : ∀ (ls : List (Fin 8)) (m : Option ℝ), (∀ v, m = some v → 78 / 100 ≤ v) →
        ∀ v, ls.foldl (fun m i => if 0 < g i then some (match m with | none => g i | some v => min v (g i)) else m) m = some v →
          78 / 100 ≤ v := by
      intro ls
      induction ls with
      | nil => intro m hm v hv; exact hm v hv
      | cons x ls ih =>
        intro m hm v hv
        refine ih _ ?_ v hv
        intro w hw
        dsimp only at hw
        split at hw
        · rename_i hpos
          cases m with
          | none =>
            simp only [Option.some.injEq] at hw
            rw [← hw]; exact (hall' x).1 hpos
          | some u =>
            simp only [Option.some.injEq] at hw
            rw [← hw]; exact le_min (hm u rfl) ((hall' x).1 hpos)
        · exact hm w hw
    have k2 : ∀ (ls : List (Fin 8)) (m : Option ℝ), (∀ v, m = some v → v ≤ -(78 / 100)) →
        ∀ v, ls.foldl (fun m i => if 0 < g i then m else some (match m with | none => g i | some v => max v (g i))) m = some v →
          v ≤ -(78 / 100) := by
      intro ls
      induction ls with
      | nil => intro m hm v hv; exact hm v hv
      | cons x ls ih =>
        intro m hm v hv
        refine ih _ ?_ v hv
        intro w hw
        dsimp only at hw
        split at hw
        · exact hm w hw
        · rename_i hpos
          cases m with
          | none =>
            simp only [Option.some.injEq] at hw
            rw [← hw]; exact (hall' x).2 hpos
          | some u =>
            simp only [Option.some.injEq] at hw
            rw [← hw]; exact max_le (hm u rfl) ((hall' x).2 hpos)
    have b1 := k1 _ none (fun v hv => by cases hv) l (by rw [hg]; exact hl)
    have b2 := k2 _ none (fun v hv => by cases hv) h (by rw [hg]; exact hh)
    rw [if_pos (by linarith)] at hin
    rcases hin with hin | hin <;> linarith

end Wavemap
