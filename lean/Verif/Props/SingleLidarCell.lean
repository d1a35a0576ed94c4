import Verif.Model.SingleLidarCell
import Verif.Props.SingleCell
import Verif.Props.SingleLidar
/-!
# C95: the update of a cell by a lidar in single precision
-/
namespace Wavemap
namespace SingleLidarCell
open SingleCamera SingleMeasurement SinglePoses SingleCell SingleLidar

/-! ## Specification -/

/-- The centre of a cell in the frame of the lidar, without rounding. -/
def exactCenter (v : Single.LidarView) (w : ℚ) (index : Index 3) (k : Fin 3) : ℚ := exactRotate v.pose.q (fun k => (index k + 1 / 2) * w) k + v.pose.t k

/-- Its distance to the lidar. -/
noncomputable def exactRange (v : Single.LidarView) (w : ℚ) (index : Index 3) : ℝ := norm3 fun k => exactCenter v w index k

/-- The bound on the error of the distance, for a point with errors of at most `δ` in its coordinates. -/
noncomputable def rangeError (δ : ℚ) (range : ℝ) : ℝ := 2 * δ + 3 / 2 ^ 24 * (range + 2 * δ)

/-- The pixel `i` of the grid is next to the direction of the point `q`: its centre is within half a pixel and 6 microradians of its elevation and of its azimuth. -/
def NextTo (g : Single.Grid) (i : Idx2) (q : Point 3) : Prop :=
  ∃ elevation azimuth, IsAngle elevation (Wavemap.planarNorm fun k => q k) (q 2) ∧ |((i.1 * g.scale 0 + g.offset 0 : ℚ) : ℝ) - elevation| ≤ (g.scale 0 / 2 : ℚ) + 6 / 10 ^ 6 ∧
    IsAngle azimuth (q 0) (q 1) ∧ |((i.2 * g.scale 1 + g.offset 1 : ℚ) : ℝ) - azimuth| ≤ (g.scale 1 / 2 : ℚ) + 6 / 10 ^ 6

/-! ## Proofs -/

theorem center_close {v : Single.LidarView} (hq : |normSq v.pose.q - 1| ≤ 1 / 100) {w : ℚ} (hw : 0 < w) (index : Index 3) (h : ∀ k, |index k| < 2 ^ 22) {M N : ℚ}
    (hM : ∀ k, |((index k : ℚ) + 1 / 2) * w| ≤ M) (hN : ∀ k, |v.pose.t k| ≤ N) (k : Fin 3) : |v.cellInSensor w index k - exactCenter v w index k| ≤ positionError M N :=
  cell_err (v := ⟨⟨1, 1, 1, 1, 0, 0⟩, v.pose, v.image, v.ray, v.minRange, v.maxRange⟩) hq hw index h hM hN k

theorem norm3_eq_dist (p : Vec3) : norm3 p = dist3 p 0 := by
  unfold norm3 dist3
  congr 1
  simp only [Pi.zero_apply, sub_zero]
  ring

theorem dist3_comm (p q : Vec3) : dist3 p q = dist3 q p := by
  unfold dist3
  congr 1
  ring

theorem dist3_le {p q : Vec3} {δ : ℝ} (h0 : 0 ≤ δ) (h : ∀ k, |p k - q k| ≤ δ) : dist3 p q ≤ 2 * δ := by
  unfold dist3
  rw [Real.sqrt_le_left (by linarith)]
  have hk : ∀ k, (p k - q k) ^ 2 ≤ δ ^ 2 := fun k => by
    rw [← sq_abs]
    exact pow_le_pow_left₀ (abs_nonneg _) (h k) 2
  nlinarith [hk 0, hk 1, hk 2]

theorem norm3_close {p q : Vec3} {δ : ℝ} (h0 : 0 ≤ δ) (h : ∀ k, |p k - q k| ≤ δ) : |norm3 p - norm3 q| ≤ 2 * δ := by
  have h1 := dist3_le h0 h
  rw [norm3_eq_dist, norm3_eq_dist]
  have t1 := dist3_triangle p q 0
  have t2 := dist3_triangle q p 0
  rw [dist3_comm q p] at t2
  rw [abs_le]
  constructor <;> linarith

theorem depth_close {sqrtF : ℚ → ℚ} (hs : IsSqrtSingle sqrtF) {p q : Point 3} {δ : ℚ} (h : ∀ k, |p k - q k| ≤ δ) :
    |((Single.sphericalDepth sqrtF p : ℚ) : ℝ) - norm3 fun k => q k| ≤ rangeError δ (norm3 fun k => q k) := by
  have h0 : 0 ≤ δ := (abs_nonneg _).trans (h 0)
  have h1 := norm3_close (p := fun k => (p k : ℝ)) (q := fun k => (q k : ℝ)) (δ := δ) (by exact_mod_cast h0) (fun k => by exact_mod_cast h k)
  have h2 := C94_range sqrtF hs p
  unfold rangeError
  have a1 := abs_le.1 h1
  have h3 : 3 / 2 ^ 24 * (norm3 fun k => (p k : ℝ)) ≤ 3 / 2 ^ 24 * ((norm3 fun k => (q k : ℝ)) + 2 * δ) :=
    mul_le_mul_of_nonneg_left (by linarith [a1.2]) (by norm_num)
  have a2 := abs_le.1 (h2.trans h3)
  generalize 3 / 2 ^ 24 * ((norm3 fun k => (q k : ℝ)) + 2 * δ) = E at *
  rw [abs_le]
  constructor <;> linarith [a1.1, a1.2, a2.1, a2.2]

theorem Signed.with_ok (b : Bool) (x : ℚ) : (Single.Signed.with b x).Ok := by
  constructor
  · intro h
    have h' : x < 0 := h
    simp [Single.Signed.with, h'.ne, h']
  · intro h
    have h' : 0 < x := h
    simp [Single.Signed.with, h'.ne', h'.le]

end SingleLidarCell

open SingleCamera SingleMeasurement SinglePoses SingleCell SingleLidar SingleLidarCell

/-- What a lidar adds to a cell within its range and off its vertical axis: up to the stated error it is the exact update for the measured distance of a pixel next to the
direction of a point `q`, or nothing if that pixel is outside the image; `q` is within rounding errors of the cell's centre, and so is the distance used. -/
theorem C95_cell_partial (logF sqrtF : ℚ → ℚ) (hl : IsLogSingle logF) (hs : IsSqrtSingle sqrtF) (hsf : ∀ x, IsFloat (sqrtF x)) (negativeZero : Fin 3 → Bool)
    (hz : negativeZero 0 = false) (v : Single.LidarView) (hc : v.ray.Scaled) (hg : ∀ i, 0 < v.grid.scale i ∧ |v.grid.offset i| ≤ 32 / 10)
    (hq : |normSq v.pose.q - 1| ≤ 1 / 100) (w : ℚ) (hw : 0 < w) (index : Index 3) (h : ∀ k, |index k| < 2 ^ 22) (M N : ℚ)
    (hM : ∀ k, |((index k : ℚ) + 1 / 2) * w| ≤ M) (hN : ∀ k, |v.pose.t k| ≤ N)
    (haxis : positionError M N < |exactCenter v w index 0| ∨ positionError M N < |exactCenter v w index 1|)
    (hmin : v.minRange + rangeError (positionError M N) (exactRange v w index) ≤ exactRange v w index)
    (hmax : exactRange v w index ≤ v.maxRange - rangeError (positionError M N) (exactRange v w index)) :
    ∃ (q : Point 3) (i : Idx2) (distance u : ℚ), (∀ k, |q k - exactCenter v w index k| ≤ positionError M N) ∧ NextTo v.grid i q ∧
      |(distance : ℝ) - norm3 fun k => q k| ≤ 3 / 2 ^ 24 * (norm3 fun k => (q k : ℝ)) ∧
      |(distance : ℝ) - exactRange v w index| ≤ rangeError (positionError M N) (exactRange v w index) ∧
      v.cellChange logF sqrtF negativeZero w index = some u ∧
      match v.image.at i with
      | none => u = 0
      | some measured => ∃ exact : ℝ, v.ray.exact.distanceUpdate distance measured = some exact ∧
          |(u : ℝ) - exact| ≤ 1 / 2 ^ 12 / (1 - v.ray.scalingFree) + Single.kEpsilon := by
  have he := center_close hq hw index h hM hN
  set δ := positionError M N with hδ
  have hk := SingleCamera.kEpsilon_pos
  set p := v.cellInSensor w index with hp
  have hd := depth_close hs he
  have hne : p 1 ≠ 0 ∨ p 0 ≠ 0 := by
    rcases haxis with h | h
    · right
      intro h0
      have := he 0
      rw [h0, zero_sub, abs_neg] at this
      linarith
    · left
      intro h0
      have := he 1
      rw [h0, zero_sub, abs_neg] at this
      linarith
  obtain ⟨i, el, az, g1, g2, g3, g4, g5⟩ := C94_pixel_partial sqrtF hs v.grid hg (fun k => Single.Signed.with (negativeZero k) (p k)) (fun k => Signed.with_ok _ _) hne
    (fun h0 => by
      have h0' : p 0 = 0 := h0
      simp [Single.Signed.with, h0', hz])
  have hup : v.computeUpdate logF sqrtF negativeZero p = match v.image.at (i 0, i 1) with
      | none => some 0
      | some measured => v.ray.distanceUpdate logF (Single.sphericalDepth sqrtF p) measured := by
    have hcond : ¬(Single.sphericalDepth sqrtF p < v.minRange ∨ v.maxRange < Single.sphericalDepth sqrtF p) := by
      have a := abs_le.1 hd
      unfold exactRange at hmin hmax
      push Not
      constructor
      · have : ((v.minRange : ℚ) : ℝ) ≤ ((Single.sphericalDepth sqrtF p : ℚ) : ℝ) := by linarith [a.1]
        exact_mod_cast this
      · have : ((Single.sphericalDepth sqrtF p : ℚ) : ℝ) ≤ ((v.maxRange : ℚ) : ℝ) := by linarith [a.2]
        exact_mod_cast this
    unfold Single.LidarView.computeUpdate
    dsimp only
    rw [if_neg hcond, g1]
    rfl
  refine ⟨p, (i 0, i 1), Single.sphericalDepth sqrtF p, ?_⟩
  have hch : v.cellChange logF sqrtF negativeZero w index = (v.computeUpdate logF sqrtF negativeZero p).map fun update => if Single.kEpsilon < |update| then update else 0 := rfl
  rw [hch, hup]
  have hnext : NextTo v.grid (i 0, i 1) p := ⟨el, az, g2, g3, g4, g5⟩
  cases him : v.image.at (i 0, i 1) with
  | none => exact ⟨0, he, hnext, C94_range sqrtF hs p, hd, by simp, rfl⟩
  | some measured =>
    obtain ⟨u, b, e1, e2, e3⟩ := C92_ray_error logF hl v.ray hc (Single.sphericalDepth sqrtF p) measured (hsf _)
    refine ⟨if Single.kEpsilon < |u| then u else 0, he, hnext, C94_range sqrtF hs p, hd, ?_, b, e2, ?_⟩
    · dsimp only
      rw [e1]; rfl
    · have hu : |((if Single.kEpsilon < |u| then u else 0 : ℚ) : ℝ) - u| ≤ Single.kEpsilon := by
        split
        · rw [sub_self, abs_zero]; exact_mod_cast hk.le
        · rename_i hn
          push Not at hn
          rw [Rat.cast_zero, zero_sub, abs_neg]
          exact_mod_cast hn
      have e8 := abs_le.1 e3
      have e10 := abs_le.1 hu
      rw [abs_le]
      constructor <;> linarith [e8.1, e8.2, e10.1, e10.2]

/-- A cell that is not within the lidar's range is not changed, wherever it is. -/
theorem C95_outside (logF sqrtF : ℚ → ℚ) (hs : IsSqrtSingle sqrtF) (negativeZero : Fin 3 → Bool) (v : Single.LidarView) (hq : |normSq v.pose.q - 1| ≤ 1 / 100) (w : ℚ)
    (hw : 0 < w) (index : Index 3) (h : ∀ k, |index k| < 2 ^ 22) (M N : ℚ) (hM : ∀ k, |((index k : ℚ) + 1 / 2) * w| ≤ M) (hN : ∀ k, |v.pose.t k| ≤ N)
    (hout : exactRange v w index < v.minRange - rangeError (positionError M N) (exactRange v w index) ∨
      v.maxRange + rangeError (positionError M N) (exactRange v w index) < exactRange v w index) :
    v.cellChange logF sqrtF negativeZero w index = some 0 := by
  have a := abs_le.1 (depth_close hs (center_close hq hw index h hM hN))
  unfold Single.LidarView.cellChange Single.LidarView.computeUpdate
  dsimp only
  rw [if_pos]
  · simp
  · unfold exactRange at hout
    rcases hout with h1 | h1
    · left
      have : ((Single.sphericalDepth sqrtF (v.cellInSensor w index) : ℚ) : ℝ) < ((v.minRange : ℚ) : ℝ) := by linarith [a.2]
      exact_mod_cast this
    · right
      have : ((v.maxRange : ℚ) : ℝ) < ((Single.sphericalDepth sqrtF (v.cellInSensor w index) : ℚ) : ℝ) := by linarith [a.1]
      exact_mod_cast this

/-! ## Examples -/

namespace SingleLidarCell

/-- The single precision number nearest to a positive real number. -/
noncomputable def nearest (y : ℝ) : ℚ := round (y / 2 ^ (Int.log 2 y - 23)) * 2 ^ (Int.log 2 y - 23)

theorem nearest_err {y : ℝ} (hy : 0 < y) : |(nearest y : ℝ) - y| ≤ y / 2 ^ 24 := by
  unfold nearest
  have h1 := Int.zpow_log_le_self (b := 2) (by norm_num) hy
  push_cast at h1 ⊢
  have hp : (0 : ℝ) < 2 ^ (Int.log 2 y - 23) := zpow_pos (by norm_num) _
  have e : (2 : ℝ) ^ Int.log 2 y = 2 ^ (Int.log 2 y - 23) * 2 ^ 23 := by
    rw [zpow_sub₀ (by norm_num)]; norm_num
  rw [e] at h1
  generalize (2 : ℝ) ^ (Int.log 2 y - 23) = t at *
  have h2 := abs_sub_round (y / t)
  have e2 : (round (y / t) : ℝ) * t - y = -((y / t - round (y / t)) * t) := by field_simp; ring
  rw [e2, abs_neg, abs_mul, abs_of_pos hp]
  have := mul_le_mul_of_nonneg_right h2 hp.le
  norm_num at *
  linarith

theorem nearest_isFloat {y : ℝ} (hy : 0 < y) : IsFloat (nearest y) := by
  have h1 := Int.lt_zpow_succ_log_self (b := 2) (by norm_num) y
  push_cast at h1
  have hp : (0 : ℝ) < 2 ^ (Int.log 2 y - 23) := zpow_pos (by norm_num) _
  have e : (2 : ℝ) ^ (Int.log 2 y + 1) = 2 ^ (Int.log 2 y - 23) * 2 ^ 24 := by
    rw [zpow_sub₀ (by norm_num), zpow_add₀ (by norm_num)]; norm_num; ring
  rw [e] at h1
  unfold nearest
  generalize Int.log 2 y - 23 = n at *
  have h2 : y / 2 ^ n < 2 ^ 24 := by rw [div_lt_iff₀ hp]; linarith
  have h3 : 0 < y / 2 ^ n := div_pos hy hp
  have h4 := abs_le.1 (abs_sub_round (y / 2 ^ n))
  have h5 : -1 < round (y / 2 ^ n) := by
    have : (-1 : ℝ) < round (y / 2 ^ n) := by linarith [h4.2]
    exact_mod_cast this
  have h6 : round (y / 2 ^ n) ≤ 2 ^ 24 := by
    have : (round (y / 2 ^ n) : ℝ) < 2 ^ 24 + 1 := by linarith [h4.1]
    have : round (y / 2 ^ n) < 2 ^ 24 + 1 := by exact_mod_cast this
    omega
  generalize round (y / 2 ^ n) = k at *
  rcases h6.eq_or_lt with h | h
  · refine ⟨2 ^ 23, n + 1, by norm_num, ?_⟩
    rw [h, zpow_add₀ (by norm_num)]
    norm_num
    ring
  · exact ⟨k, n, by rw [abs_lt]; constructor <;> omega, rfl⟩

/-- The correctly rounded square root. -/
noncomputable def roundedSqrt (x : ℚ) : ℚ := if 0 < x then nearest (Real.sqrt x) else 0

theorem roundedSqrt_ok : IsSqrtSingle roundedSqrt ∧ ∀ x, IsFloat (roundedSqrt x) := by
  constructor
  · intro x hx
    unfold roundedSqrt
    split
    · rename_i h
      exact nearest_err (Real.sqrt_pos.2 (by exact_mod_cast h))
    · rename_i h
      obtain rfl : x = 0 := le_antisymm (not_lt.1 h) hx
      simp
  · intro x
    unfold roundedSqrt
    split
    · rename_i h
      exact nearest_isFloat (Real.sqrt_pos.2 (by exact_mod_cast h))
    · exact isFloat_zero

/-- A lidar at the given position that measures five metres in all directions. -/
def exampleLidar (t : Point 3) : Single.LidarView where
  grid := Single.Grid.lidar ![-2 / 5, -3] ![2 / 5, 3] ![64, 1024]
  pose := ⟨⟨1, 0, 0, 0⟩, t⟩
  image := ⟨64, 1024, fun _ _ => 5⟩
  ray := ⟨1 / 8, 1 / 4, 1 / 2⟩
  minRange := 1 / 2
  maxRange := 20

theorem exampleLidar_ok (t : Point 3) : (exampleLidar t).ray.Scaled ∧ normSq (exampleLidar t).pose.q = 1 ∧
    ∀ i, 0 < (exampleLidar t).grid.scale i ∧ |(exampleLidar t).grid.offset i| ≤ 32 / 10 := by
  refine ⟨⟨by norm_num [exampleLidar], ⟨by norm_num [exampleLidar], by norm_num [exampleLidar], 1, -2, by norm_num, by norm_num [exampleLidar]⟩, by norm_num [exampleLidar],
    by norm_num [exampleLidar]⟩, by norm_num [exampleLidar, normSq], ?_⟩
  have s : 0 < (Single.Grid.lidar ![-2 / 5, -3] ![2 / 5, 3] ![64, 1024]).scale 0 ∧ 0 < (Single.Grid.lidar ![-2 / 5, -3] ![2 / 5, 3] ![64, 1024]).scale 1 := by decide +kernel
  intro i
  fin_cases i
  · exact ⟨s.1, by norm_num [exampleLidar, Single.Grid.lidar, abs_of_neg]⟩
  · exact ⟨s.2, by norm_num [exampleLidar, Single.Grid.lidar, abs_of_neg]⟩

theorem exampleLidar_cell : ∀ k : Fin 3, exactCenter (exampleLidar fun _ => 0) (1 / 8) ![39, 2, -1] k = (![79 / 16, 5 / 16, -1 / 16] : Point 3) k := by
  decide +kernel

theorem range_between {v : Single.LidarView} {w : ℚ} {index : Index 3} {lo hi : ℚ} (h0 : 0 ≤ lo) (h1 : 0 ≤ hi)
    (hl : lo * lo ≤ exactCenter v w index 0 * exactCenter v w index 0 + exactCenter v w index 1 * exactCenter v w index 1 + exactCenter v w index 2 * exactCenter v w index 2)
    (hh : exactCenter v w index 0 * exactCenter v w index 0 + exactCenter v w index 1 * exactCenter v w index 1 + exactCenter v w index 2 * exactCenter v w index 2 ≤ hi * hi) :
    (lo : ℝ) ≤ exactRange v w index ∧ exactRange v w index ≤ hi := by
  unfold exactRange norm3
  constructor
  · refine Real.le_sqrt_of_sq_le ?_
    rw [sq]
    dsimp only
    exact_mod_cast hl
  · rw [Real.sqrt_le_left (by exact_mod_cast h1), sq]
    dsimp only
    exact_mod_cast hh

end SingleLidarCell

example : ∃ (q : Point 3) (i : Idx2) (distance u : ℚ), NextTo (exampleLidar fun _ => 0).grid i q ∧ |(distance : ℝ) - exactRange (exampleLidar fun _ => 0) (1 / 8) ![39, 2, -1]| ≤ 1 / 10000 ∧
    (exampleLidar fun _ => 0).cellChange exampleLog roundedSqrt (fun _ => false) (1 / 8) ![39, 2, -1] = some u ∧
    match (exampleLidar fun _ => 0).image.at i with
    | none => u = 0
    | some measured => ∃ exact : ℝ, (exampleLidar fun _ => 0).ray.exact.distanceUpdate distance measured = some exact ∧ |(u : ℝ) - exact| ≤ 1 / 500 := by
  have e0 := exampleLidar_cell 0
  have e1 := exampleLidar_cell 1
  have e2 := exampleLidar_cell 2
  simp only [Matrix.cons_val_zero, Matrix.cons_val_one, Matrix.cons_val] at e0 e1 e2
  obtain ⟨o1, o2, o3⟩ := exampleLidar_ok fun _ => 0
  have hp : positionError 5 0 = 365 / 2 ^ 24 := by norm_num [positionError]
  obtain ⟨r1, r2⟩ := range_between (v := exampleLidar fun _ => 0) (w := 1 / 8) (index := ![39, 2, -1]) (lo := 4) (hi := 5) (by norm_num) (by norm_num)
    (by rw [e0, e1, e2]; norm_num) (by rw [e0, e1, e2]; norm_num)
  have hr : rangeError (positionError 5 0) (exactRange (exampleLidar fun _ => 0) (1 / 8) ![39, 2, -1]) ≤ 1 / 10000 := by
    rw [hp]
    unfold rangeError
    push_cast at r2 ⊢
    norm_num
    linarith
  obtain ⟨q, i, d, u, -, h2, -, h4, h5, h6⟩ := C95_cell_partial exampleLog roundedSqrt exampleLog_ok roundedSqrt_ok.1 roundedSqrt_ok.2 (fun _ => false) rfl (exampleLidar fun _ => 0)
    o1 o3 (by rw [o2]; norm_num) (1 / 8) (by norm_num) ![39, 2, -1] (by intro k; fin_cases k <;> norm_num) 5 0
    (by intro k; fin_cases k <;> norm_num [abs_of_nonneg, abs_of_neg]) (by intro k; norm_num [exampleLidar]) (Or.inl (by rw [e0, hp]; norm_num [abs_of_pos]))
    (by
      have : ((exampleLidar fun _ => 0).minRange : ℝ) = 1 / 2 := by norm_num [exampleLidar]
      rw [this]; push_cast at r1; linarith)
    (by
      have : ((exampleLidar fun _ => 0).maxRange : ℝ) = 20 := by norm_num [exampleLidar]
      rw [this]; push_cast at r2; linarith)
  refine ⟨q, i, d, u, h2, h4.trans hr, h5, ?_⟩
  have hk : ((Single.kEpsilon : ℚ) : ℝ) ≤ 1 / 1000 := by
    have : Single.kEpsilon ≤ 1 / 1000 := by decide +kernel
    have := (Rat.cast_le (K := ℝ)).2 this
    push_cast at this
    exact this
  cases him : (exampleLidar fun _ => 0).image.at i with
  | none => rw [him] at h6; exact h6
  | some m =>
    rw [him] at h6
    obtain ⟨ex, h7, h8⟩ := h6
    refine ⟨ex, h7, h8.trans ?_⟩
    have : (((exampleLidar fun _ => 0).ray.scalingFree : ℚ) : ℝ) = 1 / 4 := by norm_num [exampleLidar]
    rw [this]
    norm_num at hk ⊢
    linarith

/-- A cell straight above the lidar has no pixel: the code converts NaN to an index. -/
theorem C95_axis_fails : ∃ (v : Single.LidarView) (w : ℚ) (index : Index 3), v.ray.Scaled ∧ normSq v.pose.q = 1 ∧ 0 < w ∧
    (∀ i, 0 < v.grid.scale i ∧ |v.grid.offset i| ≤ 32 / 10) ∧ (v.minRange : ℝ) < exactRange v w index ∧ exactRange v w index < v.maxRange ∧
    ∀ (logF sqrtF : ℚ → ℚ) (negativeZero : Fin 3 → Bool), IsSqrtSingle sqrtF → v.cellChange logF sqrtF negativeZero w index = none := by
  obtain ⟨o1, o2, o3⟩ := exampleLidar_ok ![-1 / 16, -1 / 16, 0]
  have e : (exampleLidar ![-1 / 16, -1 / 16, 0]).cellInSensor (1 / 8) ![0, 0, 39] = ![0, 0, 79 / 16] := by decide +kernel
  have c : ∀ k, exactCenter (exampleLidar ![-1 / 16, -1 / 16, 0]) (1 / 8) ![0, 0, 39] k = (![0, 0, 79 / 16] : Point 3) k := by decide +kernel
  have c0 := c 0
  have c1 := c 1
  have c2 := c 2
  simp only [Matrix.cons_val_zero, Matrix.cons_val_one, Matrix.cons_val] at c0 c1 c2
  obtain ⟨r1, r2⟩ := range_between (v := exampleLidar ![-1 / 16, -1 / 16, 0]) (w := 1 / 8) (index := ![0, 0, 39]) (lo := 4) (hi := 5) (by norm_num) (by norm_num)
    (by rw [c0, c1, c2]; norm_num) (by rw [c0, c1, c2]; norm_num)
  have m1 : ((exampleLidar ![-1 / 16, -1 / 16, 0]).minRange : ℝ) = 1 / 2 := by norm_num [exampleLidar]
  have m2 : ((exampleLidar ![-1 / 16, -1 / 16, 0]).maxRange : ℝ) = 20 := by norm_num [exampleLidar]
  refine ⟨_, 1 / 8, ![0, 0, 39], o1, o2, by norm_num, o3, by rw [m1]; push_cast at r1; linarith, by rw [m2]; push_cast at r2; linarith, ?_⟩
  intro logF sqrtF nz hs
  unfold Single.LidarView.cellChange Single.LidarView.computeUpdate
  rw [e]
  dsimp only
  have hd := C94_range sqrtF hs ![0, 0, 79 / 16]
  have hn : norm3 (fun k => (((![0, 0, 79 / 16] : Point 3) k : ℚ) : ℝ)) = 79 / 16 := by
    unfold norm3
    refine (congrArg Real.sqrt (?_ : _ = (79 / 16 : ℝ) * (79 / 16))).trans (Real.sqrt_mul_self (by norm_num))
    simp
  rw [hn] at hd
  have a := abs_le.1 hd
  rw [if_neg]
  · have hi : Single.sphericalToNearestIndex sqrtF (exampleLidar ![-1 / 16, -1 / 16, 0]).grid (fun k => Single.Signed.with (nz k) ((![0, 0, 79 / 16] : Point 3) k)) = none := by
      unfold Single.sphericalToNearestIndex
      rw [C94_axis sqrtF _ rfl rfl]
      rfl
    rw [hi]
    rfl
  · push Not
    norm_num at a
    constructor
    · have : (((exampleLidar ![-1 / 16, -1 / 16, 0]).minRange : ℚ) : ℝ) ≤ ((Single.sphericalDepth sqrtF ![0, 0, 79 / 16] : ℚ) : ℝ) := by rw [m1]; linarith [a.1]
      exact_mod_cast this
    · have : ((Single.sphericalDepth sqrtF ![0, 0, 79 / 16] : ℚ) : ℝ) ≤ (((exampleLidar ![-1 / 16, -1 / 16, 0]).maxRange : ℚ) : ℝ) := by rw [m2]; linarith [a.2]
      exact_mod_cast this

end Wavemap
