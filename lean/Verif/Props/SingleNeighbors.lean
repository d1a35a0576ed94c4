import Verif.Model.SingleNeighbors
import Verif.Props.SingleMeasurement
import Verif.Props.SingleCamera
/-!
# C96: updates from the four nearest pixels in single precision
-/
namespace Wavemap
open SingleCamera SingleMeasurement
namespace SingleNeighbors

/-! ## Specification -/

/-- The centre of the pixel `i` along one axis, without rounding. -/
def pixelCenter (g : Single.Grid) (k : Fin 2) (i : Int) : ℚ := i * g.scale k + g.offset k

/-- The exact update of a cell at distance `depth` by the pixel `i` of a range image: nothing if there is no such pixel. -/
noncomputable def exactRay (c : Single.RayConfig) (im : Image ℚ) (depth : ℚ) (i : Idx2) : Option ℝ :=
  match im.at i with
  | none => some 0
  | some measured => c.exact.distanceUpdate depth measured

/-- The exact update by four beams, given by the squares of their distances to the cell in the image and their measured distances. -/
noncomputable def exactBeams (c : Single.BeamConfig) (depth : ℚ) (beams : List (ℚ × ℚ)) : Option ℝ :=
  Wavemap.sumUpdates (beams.map fun b => c.exact.beamUpdate depth b.1 b.2)

/-! ## Sums -/

theorem sum_four (a b c d : ℚ) : Single.sumUpdates [some a, some b, some c, some d] = some (fl (fl (fl (fl a + b) + c) + d)) := by
  show some (fl (fl (fl (fl (0 + a) + b) + c) + d)) = _
  rw [zero_add]

theorem sum_four_exact (a b c d : ℝ) : Wavemap.sumUpdates [some a, some b, some c, some d] = some (a + b + c + d) := by
  show some (0 + a + b + c + d) = _
  rw [zero_add]

theorem sum_nonpos {a b c d : ℚ} (ha : a ≤ 0) (hb : b ≤ 0) (hc : c ≤ 0) (hd : d ≤ 0) : fl (fl (fl (fl a + b) + c) + d) ≤ 0 := by
  have z : ∀ x : ℚ, x ≤ 0 → fl x ≤ 0 := fun x h => by simpa [fl_zero] using fl_mono h
  have h1 := z a ha
  have h2 := z (fl a + b) (by linarith)
  have h3 := z (fl (fl a + b) + c) (by linarith)
  exact z _ (by linarith)

theorem sum_nonneg {a b c d : ℚ} (ha : 0 ≤ a) (hb : 0 ≤ b) (hc : 0 ≤ c) (hd : 0 ≤ d) : 0 ≤ fl (fl (fl (fl a + b) + c) + d) := by
  have z : ∀ x : ℚ, 0 ≤ x → 0 ≤ fl x := fun x h => by simpa [fl_zero] using fl_mono h
  have h1 := z a ha
  have h2 := z (fl a + b) (by linarith)
  have h3 := z (fl (fl a + b) + c) (by linarith)
  exact z _ (by linarith)

theorem sum_err (a b c d B : ℚ) (ha : |a| ≤ B) (hb : |b| ≤ B) (hc : |c| ≤ B) (hd : |d| ≤ B) :
    |fl (fl (fl (fl a + b) + c) + d) - (a + b + c + d)| ≤ 11 * B / 2 ^ 24 := by
  have e1 := fl_err a
  have e2 := fl_err (fl a + b)
  have e3 := fl_err (fl (fl a + b) + c)
  have e4 := fl_err (fl (fl (fl a + b) + c) + d)
  generalize fl (fl (fl (fl a + b) + c) + d) = s4 at *
  generalize fl (fl (fl a + b) + c) = s3 at *
  generalize fl (fl a + b) = s2 at *
  generalize fl a = s1 at *
  have hB : 0 ≤ B := (abs_nonneg a).trans ha
  have k1 := abs_le.1 e1
  have a' := abs_le.1 ha
  have b' := abs_le.1 hb
  have c' := abs_le.1 hc
  have d' := abs_le.1 hd
  have r1 : |a| / 2 ^ 24 ≤ B / 2 ^ 24 := by gcongr
  have n1 : |s1| ≤ B * (1 + 1 / 2 ^ 24) := by rw [abs_le]; constructor <;> linarith [k1.1, k1.2, a'.1, a'.2]
  have m1 := abs_le.1 n1
  have t2 : |s1 + b| ≤ B * (2 + 1 / 2 ^ 24) := by rw [abs_le]; constructor <;> linarith [m1.1, m1.2, b'.1, b'.2]
  have r2 : |s1 + b| / 2 ^ 24 ≤ B * (2 + 1 / 2 ^ 24) / 2 ^ 24 := by gcongr
  have k2 := abs_le.1 (e2.trans r2)
  have u2 := abs_le.1 t2
  have t3 : |s2 + c| ≤ B * (3 + 1 / 2 ^ 20) := by
    rw [abs_le]; constructor <;> linarith [k2.1, k2.2, u2.1, u2.2, c'.1, c'.2]
  have r3 : |s2 + c| / 2 ^ 24 ≤ B * (3 + 1 / 2 ^ 20) / 2 ^ 24 := by gcongr
  have k3 := abs_le.1 (e3.trans r3)
  have u3 := abs_le.1 t3
  have t4 : |s3 + d| ≤ B * (4 + 1 / 2 ^ 19) := by
    rw [abs_le]; constructor <;> linarith [k3.1, k3.2, u3.1, u3.2, d'.1, d'.2]
  have r4 : |s3 + d| / 2 ^ 24 ≤ B * (4 + 1 / 2 ^ 19) / 2 ^ 24 := by gcongr
  have k4 := abs_le.1 (e4.trans r4)
  have k1' := abs_le.1 (e1.trans r1)
  rw [abs_le]
  constructor <;> linarith [k1'.1, k1'.2, k2.1, k2.2, k3.1, k3.2, k4.1, k4.2]

theorem sum_ge {a b c d f : ℚ} (hf : f ≤ 0) (ha : f ≤ a) (hb : f ≤ b) (hc : f ≤ c) (hd : f ≤ d) :
    4 * f * (1 + 1 / 2 ^ 22) ≤ fl (fl (fl (fl a + b) + c) + d) := by
  have m1 := fl_mono ha
  have m2 := fl_mono (show fl f + f ≤ fl a + b by linarith)
  have m3 := fl_mono (show fl (fl f + f) + f ≤ fl (fl a + b) + c by linarith)
  have m4 := fl_mono (show fl (fl (fl f + f) + f) + f ≤ fl (fl (fl a + b) + c) + d by linarith)
  have h := abs_le.1 (sum_err f f f f (-f) (abs_of_nonpos hf).le (abs_of_nonpos hf).le (abs_of_nonpos hf).le (abs_of_nonpos hf).le)
  linarith [h.1]

/-- The sum of four updates and the sum of the exact ones. -/
theorem sum_close {s : ℝ} (s0 : 0 < s) (s1 : s < 1) (u : Fin 4 → ℚ) (v : Fin 4 → ℝ) (h : ∀ k, |(u k : ℝ) - v k| ≤ 1 / 2 ^ 12 / (1 - s)) (hv : ∀ k, |v k| ≤ 27 / (1 - s)) :
    |((fl (fl (fl (fl (u 0) + u 1) + u 2) + u 3) : ℚ) : ℝ) - (v 0 + v 1 + v 2 + v 3)| ≤ 5 / 2 ^ 12 / (1 - s) := by
  have hw : 0 < 1 - s := by linarith
  have hB : ∀ k, |(u k : ℝ)| ≤ 28 / (1 - s) := fun k => by
    have h1 := abs_le.1 (h k)
    have h2 := abs_le.1 (hv k)
    have e : 1 / 2 ^ 12 / (1 - s) = 1 / 2 ^ 12 * (1 / (1 - s)) := by ring
    have e2 : 27 / (1 - s) = 27 * (1 / (1 - s)) := by ring
    have e3 : 28 / (1 - s) = 28 * (1 / (1 - s)) := by ring
    have pos : 0 < 1 / (1 - s) := by positivity
    rw [e] at h1
    rw [e2] at h2
    rw [e3, abs_le]
    constructor <;> linarith [h1.1, h1.2, h2.1, h2.2]
  obtain ⟨B, hb1, hb2⟩ := exists_rat_btwn (show 28 / (1 - s) < 29 / (1 - s) by gcongr; norm_num)
  have hq : ∀ k, |u k| ≤ B := fun k => by
    have : |(u k : ℝ)| ≤ (B : ℝ) := (hB k).trans hb1.le
    rw [← Rat.cast_abs] at this
    exact_mod_cast this
  have main := (Rat.cast_le (K := ℝ)).2 (sum_err (u 0) (u 1) (u 2) (u 3) B (hq 0) (hq 1) (hq 2) (hq 3))
  generalize fl (fl (fl (fl (u 0) + u 1) + u 2) + u 3) = S at *
  push_cast at main
  have k := abs_le.1 main
  have pos : 0 < 1 / (1 - s) := by positivity
  have hb2' : (B : ℝ) ≤ 29 * (1 / (1 - s)) := by rw [mul_one_div]; exact hb2.le
  have h' : ∀ k, |(u k : ℝ) - v k| ≤ 1 / 2 ^ 12 * (1 / (1 - s)) := fun k => by
    have := h k
    rwa [div_eq_mul_one_div (1 / 2 ^ 12) (1 - s)] at this
  have a0 := abs_le.1 (h' 0)
  have a1 := abs_le.1 (h' 1)
  have a2 := abs_le.1 (h' 2)
  have a3 := abs_le.1 (h' 3)
  rw [div_eq_mul_one_div (5 / 2 ^ 12) (1 - s), abs_le]
  generalize 1 / (1 - s) = w at *
  constructor <;> linarith [k.1, k.2, a0.1, a0.2, a1.1, a1.2, a2.1, a2.2, a3.1, a3.2]

theorem log_bound {s q : ℝ} (s0 : 0 < s) (s1 : s < 1) (q0 : (1 - s) / 2 ≤ q) (q1 : q ≤ 193 / 200) : |Real.log (q / (1 - q))| ≤ 27 / (1 - s) := by
  have hw : 0 < 1 - s := by linarith
  have hq : 0 < q := by linarith
  have hq1 : 0 < 1 - q := by linarith
  have ho : 0 < q / (1 - q) := div_pos hq hq1
  rw [abs_le]
  constructor
  · have h := Real.one_sub_inv_le_log_of_pos ho
    have e : (q / (1 - q))⁻¹ ≤ 2 / (1 - s) := by
      rw [inv_div, div_le_div_iff₀ hq hw]
      nlinarith
    have : 0 < 1 / (1 - s) := by positivity
    have e2 : 2 / (1 - s) = 2 * (1 / (1 - s)) := by ring
    have e3 : 27 / (1 - s) = 27 * (1 / (1 - s)) := by ring
    rw [e2] at e
    rw [e3]
    linarith
  · have h := Real.log_le_sub_one_of_pos ho
    have e : q / (1 - q) ≤ 28 := by
      rw [div_le_iff₀ hq1]
      linarith
    have : 27 ≤ 27 / (1 - s) := by
      rw [le_div_iff₀ hw]
      linarith
    linarith

theorem ray_free_nonpos {logF : ℚ → ℚ} (hl : IsLogSingle logF) {c : Single.RayConfig} (hc : c.Scaled) : ∃ free, c.freeSpaceUpdate logF = some free ∧ free ≤ 0 := by
  obtain ⟨u, free, -, h2, -, h4, -⟩ := C92_ray logF hl c hc 0 0 isFloat_zero
  exact ⟨free, h2, h4⟩

/-- One pixel. -/
theorem ray_one {logF : ℚ → ℚ} (hl : IsLogSingle logF) {c : Single.RayConfig} (hc : c.Scaled) {im : Image ℚ} (him : ∀ i m, im.at i = some m → IsFloat m) {depth : ℚ}
    (hd : IsFloat depth) {free : ℚ} (hfree : c.freeSpaceUpdate logF = some free) (i : Idx2) :
    ∃ (u : ℚ) (v : ℝ), c.beamUpdate logF im depth i = some u ∧ exactRay c im depth i = some v ∧ free ≤ u ∧ |(u : ℝ) - v| ≤ 1 / 2 ^ 12 / (1 - c.scalingFree) ∧
      |v| ≤ 27 / (1 - c.scalingFree) ∧ ((∀ m, im.at i = some m → depth ≤ m) → u ≤ 0) ∧ ((∀ m, im.at i = some m → m ≤ depth) → 0 ≤ u) := by
  have f0 : (0 : ℝ) < c.scalingFree := by exact_mod_cast hc.free.1
  have f1 : (c.scalingFree : ℝ) < 1 := by exact_mod_cast hc.free.2.1
  have hw : (0 : ℝ) < 1 - c.scalingFree := by linarith
  unfold Single.RayConfig.beamUpdate exactRay
  cases h : im.at i with
  | none =>
    obtain ⟨free', h1, h2⟩ := ray_free_nonpos hl hc
    obtain rfl : free' = free := by rw [hfree] at h1; exact (Option.some.inj h1).symm
    refine ⟨0, 0, rfl, rfl, h2, ?_, ?_, fun _ => le_rfl, fun _ => le_rfl⟩
    · rw [Rat.cast_zero, sub_zero, abs_zero]; positivity
    · rw [abs_zero]; positivity
  | some m =>
    obtain ⟨u, fr, h1, h2, h3, -, h5, h6⟩ := C92_ray logF hl c hc depth m (him i m h)
    obtain ⟨u', v, g1, g2, g3⟩ := C92_ray_error logF hl c hc depth m hd
    obtain rfl : u' = u := by rw [h1] at g1; exact (Option.some.inj g1).symm
    obtain rfl : fr = free := by rw [hfree] at h2; exact (Option.some.inj h2).symm
    refine ⟨u', v, h1, g2, h3, g3, ?_, fun hm => h5 (hm m rfl), fun hm => h6 (hm m rfl)⟩
    rw [ray_exact hc] at g2
    obtain ⟨q0, q1⟩ := rayQ_range hc depth m
    rw [← Option.some.inj g2]
    exact log_bound f0 f1 q0 q1

end SingleNeighbors
open SingleNeighbors

/-- **The continuous ray with all neighbours.** The sum is finite, at least four times the update of free space up to rounding, not positive if no pixel that is used measured
less than the distance of the cell, not negative if none measured more, and close to the sum of the exact updates by the same pixels. -/
theorem C96_ray (logF : ℚ → ℚ) (hl : IsLogSingle logF) (c : Single.RayConfig) (hc : c.Scaled) (g : Single.Grid) (im : Image ℚ)
    (him : ∀ i m, im.at i = some m → IsFloat m) (image : Point 2) (depth : ℚ) (hd : IsFloat depth) :
    ∃ (u free : ℚ) (v : ℝ), c.updateAll logF g im image depth = some u ∧ c.freeSpaceUpdate logF = some free ∧ 4 * free * (1 + 1 / 2 ^ 22) ≤ u ∧
      ((∀ i ∈ g.imageToNearestIndices image, ∀ m, im.at i = some m → depth ≤ m) → u ≤ 0) ∧
      ((∀ i ∈ g.imageToNearestIndices image, ∀ m, im.at i = some m → m ≤ depth) → 0 ≤ u) ∧
      Wavemap.sumUpdates ((g.imageToNearestIndices image).map (exactRay c im depth)) = some v ∧ |(u : ℝ) - v| ≤ 5 / 2 ^ 12 / (1 - c.scalingFree) := by
  obtain ⟨free, hfree, hneg⟩ := ray_free_nonpos hl hc
  have f0 : (0 : ℝ) < c.scalingFree := by exact_mod_cast hc.free.1
  have f1 : (c.scalingFree : ℝ) < 1 := by exact_mod_cast hc.free.2.1
  unfold Single.RayConfig.updateAll Single.Grid.imageToNearestIndices
  dsimp only
  choose u v h1 h2 h3 h4 h5 h6 h7 using ray_one hl hc him hd hfree
  simp only [List.map_cons, List.map_nil, h1, h2]
  rw [sum_four, sum_four_exact]
  refine ⟨_, free, _, rfl, hfree, sum_ge hneg (h3 _) (h3 _) (h3 _) (h3 _), fun h => ?_, fun h => ?_, rfl, ?_⟩
  · exact sum_nonpos (h6 _ (h _ (by simp))) (h6 _ (h _ (by simp))) (h6 _ (h _ (by simp))) (h6 _ (h _ (by simp)))
  · exact sum_nonneg (h7 _ (h _ (by simp))) (h7 _ (h _ (by simp))) (h7 _ (h _ (by simp))) (h7 _ (h _ (by simp)))
  · generalize g.imageToIndexReal image = r
    exact sum_close f0 f1 (fun k => ![u (⌊r 0⌋, ⌊r 1⌋), u (⌈r 0⌉, ⌊r 1⌋), u (⌊r 0⌋, ⌈r 1⌉), u (⌈r 0⌉, ⌈r 1⌉)] k)
      (fun k => ![v (⌊r 0⌋, ⌊r 1⌋), v (⌈r 0⌉, ⌊r 1⌋), v (⌊r 0⌋, ⌈r 1⌉), v (⌈r 0⌉, ⌈r 1⌉)] k)
      (fun k => by fin_cases k <;> exact h4 _) (fun k => by fin_cases k <;> exact h5 _)

namespace SingleNeighbors

/-- One beam. -/
theorem beam_one {logF : ℚ → ℚ} (hl : IsLogSingle logF) {sqrtF : ℚ → ℚ} (hq : IsSqrtSingle sqrtF) {c : Single.BeamConfig} (hc : c.Scaled) {depth : ℚ} (hd : IsFloat depth)
    {free : ℚ} (hfree : Single.RayConfig.freeSpaceUpdate logF ⟨c.rangeSigma, c.scalingFree, c.scalingOccupied⟩ = some free) {errSq m : ℚ} (h0 : 0 ≤ errSq) (hE : IsFloat errSq)
    (hm : IsFloat m) :
    ∃ (u : ℚ) (v : ℝ), c.beamUpdate logF sqrtF depth errSq m = some u ∧ c.exact.beamUpdate depth errSq m = some v ∧ free ≤ u ∧
      |(u : ℝ) - v| ≤ 1 / 2 ^ 12 / (1 - c.scalingFree) ∧ |v| ≤ 27 / (1 - c.scalingFree) ∧ (depth ≤ m → u ≤ 0) ∧ (m ≤ depth → 0 ≤ u) := by
  have f0 : (0 : ℝ) < c.scalingFree := by exact_mod_cast hc.free.1
  have f1 : (c.scalingFree : ℝ) < 1 := by exact_mod_cast hc.free.2.1
  obtain ⟨u, fr, h1, h2, h3, h5, h6⟩ := C92_beam logF hl sqrtF c hc depth errSq m hd hm
  obtain ⟨u', v, g1, g2, g3⟩ := C92_beam_error logF hl sqrtF hq c hc depth errSq m h0 hd hm hE
  obtain rfl : u' = u := by rw [h1] at g1; exact (Option.some.inj g1).symm
  obtain rfl : fr = free := by rw [hfree] at h2; exact (Option.some.inj h2).symm
  refine ⟨u', v, h1, g2, h3, g3, ?_, h5, h6⟩
  rw [beam_exact hc] at g2
  obtain ⟨q0, q1⟩ := beamQ_range hc depth errSq m
  rw [← Option.some.inj g2]
  exact log_bound f0 f1 q0 q1

end SingleNeighbors

/-- **The continuous beam with all neighbours.** The same, with the exact updates for the measured distances and the rounded squares of the distances in the image. A neighbour
outside the image counts as a measurement of zero. -/
theorem C96_beam_partial (logF : ℚ → ℚ) (hl : IsLogSingle logF) (sqrtF : ℚ → ℚ) (hq : IsSqrtSingle sqrtF) (c : Single.BeamConfig) (hc : c.Scaled) (g : Single.Grid) (errSq : Point 2 → ℚ)
    (he : ∀ o, 0 ≤ errSq o ∧ IsFloat (errSq o)) (im : Image ℚ) (him : ∀ i m, im.at i = some m → IsFloat m) (offsets : Image (Point 2)) (image : Point 2) (depth : ℚ)
    (hd : IsFloat depth) :
    ∃ (u free : ℚ) (v : ℝ), c.updateAll logF sqrtF g errSq im offsets image depth = some u ∧
      Single.RayConfig.freeSpaceUpdate logF ⟨c.rangeSigma, c.scalingFree, c.scalingOccupied⟩ = some free ∧ 4 * free * (1 + 1 / 2 ^ 22) ≤ u ∧
      ((∀ io ∈ g.imageToNearestIndicesAndOffsets image, depth ≤ (Single.neighborBeam im offsets io).1) → u ≤ 0) ∧
      ((∀ io ∈ g.imageToNearestIndicesAndOffsets image, (Single.neighborBeam im offsets io).1 ≤ depth) → 0 ≤ u) ∧
      exactBeams c depth ((g.imageToNearestIndicesAndOffsets image).map fun io => (errSq (Single.neighborBeam im offsets io).2, (Single.neighborBeam im offsets io).1)) = some v ∧
      |(u : ℝ) - v| ≤ 5 / 2 ^ 12 / (1 - c.scalingFree) := by
  obtain ⟨free, hfree, hneg⟩ := ray_free_nonpos hl (c := ⟨c.rangeSigma, c.scalingFree, c.scalingOccupied⟩) ⟨hc.sigma.2, hc.free, hc.occupied⟩
  have f0 : (0 : ℝ) < c.scalingFree := by exact_mod_cast hc.free.1
  have f1 : (c.scalingFree : ℝ) < 1 := by exact_mod_cast hc.free.2.1
  have hm : ∀ io, IsFloat (Single.neighborBeam im offsets io).1 := fun io => by
    unfold Single.neighborBeam
    split
    · rename_i m o h1 h2
      exact him _ _ h1
    · exact isFloat_zero
  choose u v h1 h2 h3 h4 h5 h6 h7 using fun io => beam_one hl hq hc hd hfree (he (Single.neighborBeam im offsets io).2).1 (he (Single.neighborBeam im offsets io).2).2 (hm io)
  unfold Single.BeamConfig.updateAll Single.Grid.imageToNearestIndicesAndOffsets Single.Grid.imageToNearestIndices exactBeams
  simp only [List.map_cons, List.map_nil, h1, h2]
  rw [sum_four, sum_four_exact]
  refine ⟨_, free, _, rfl, hfree, sum_ge hneg (h3 _) (h3 _) (h3 _) (h3 _), fun h => ?_, fun h => ?_, rfl, ?_⟩
  · exact sum_nonpos (h6 _ (h _ (by simp))) (h6 _ (h _ (by simp))) (h6 _ (h _ (by simp))) (h6 _ (h _ (by simp)))
  · exact sum_nonneg (h7 _ (h _ (by simp))) (h7 _ (h _ (by simp))) (h7 _ (h _ (by simp))) (h7 _ (h _ (by simp)))
  · generalize g.imageToIndexReal image = r
    generalize (((⌊r 0⌋, ⌊r 1⌋), ![fl (g.scale 0 * fl ((⌊r 0⌋ : ℚ) - r 0)), fl (g.scale 1 * fl ((⌊r 1⌋ : ℚ) - r 1))]) : Idx2 × Point 2) = a
    generalize (((⌈r 0⌉, ⌊r 1⌋), ![fl (g.scale 0 * fl ((⌈r 0⌉ : ℚ) - r 0)), fl (g.scale 1 * fl ((⌊r 1⌋ : ℚ) - r 1))]) : Idx2 × Point 2) = b
    generalize (((⌊r 0⌋, ⌈r 1⌉), ![fl (g.scale 0 * fl ((⌊r 0⌋ : ℚ) - r 0)), fl (g.scale 1 * fl ((⌈r 1⌉ : ℚ) - r 1))]) : Idx2 × Point 2) = d
    generalize (((⌈r 0⌉, ⌈r 1⌉), ![fl (g.scale 0 * fl ((⌈r 0⌉ : ℚ) - r 0)), fl (g.scale 1 * fl ((⌈r 1⌉ : ℚ) - r 1))]) : Idx2 × Point 2) = e
    exact sum_close f0 f1 (fun k => ![u a, u b, u d, u e] k) (fun k => ![v a, v b, v d, v e] k) (fun k => by fin_cases k <;> exact h4 _)
      (fun k => by fin_cases k <;> exact h5 _)

/-! ## The pixels -/

/-- **The four pixels and their offsets.** They are the corners of a square with sides of at most one pixel that contains the image coordinates, up to a rounding error, and
the offsets lead from the image coordinates to their centres, up to a rounding error. -/
theorem C96_pixels (g : Single.Grid) (hs : ∀ k, 0 < g.scale k) (image : Point 2) :
    (g.imageToNearestIndicesAndOffsets image).map Prod.fst = g.imageToNearestIndices image ∧
    (∃ lo hi : Index 2, g.imageToNearestIndices image = [(lo 0, lo 1), (hi 0, lo 1), (lo 0, hi 1), (hi 0, hi 1)] ∧
      ∀ k, lo k ≤ hi k ∧ hi k ≤ lo k + 1 ∧ pixelCenter g k (lo k) ≤ image k + 3 * |image k - g.offset k| / 2 ^ 23 ∧
        image k - 3 * |image k - g.offset k| / 2 ^ 23 ≤ pixelCenter g k (hi k)) ∧
    ∀ io ∈ g.imageToNearestIndicesAndOffsets image, ∀ k,
      |io.2 k - (pixelCenter g k (![io.1.1, io.1.2] k) - image k)| ≤ (3 * |image k - g.offset k| + 2 * g.scale k) / 2 ^ 23 := by
  have real : ∀ k, |g.imageToIndexReal image k - (image k - g.offset k) / g.scale k| ≤ 3 / 2 ^ 23 * (|image k - g.offset k| / g.scale k) := fun k => by
    have h := real_err (image k) (g.offset k) (g.scale k)
    rwa [abs_div, abs_of_pos (hs k)] at h
  have scaled : ∀ k, |g.scale k * g.imageToIndexReal image k + g.offset k - image k| ≤ 3 * |image k - g.offset k| / 2 ^ 23 := fun k => by
    have hk := hs k
    have e : g.scale k * g.imageToIndexReal image k + g.offset k - image k = g.scale k * (g.imageToIndexReal image k - (image k - g.offset k) / g.scale k) := by
      field_simp
      ring
    rw [e, abs_mul, abs_of_pos hk]
    calc _ ≤ g.scale k * (3 / 2 ^ 23 * (|image k - g.offset k| / g.scale k)) := mul_le_mul_of_nonneg_left (real k) hk.le
      _ = _ := by field_simp
  have off : ∀ (k : Fin 2) (n : Int), |(n : ℚ) - g.imageToIndexReal image k| ≤ 1 →
      |fl (g.scale k * fl (n - g.imageToIndexReal image k)) - (pixelCenter g k n - image k)| ≤ (3 * |image k - g.offset k| + 2 * g.scale k) / 2 ^ 23 := by
    intro k n hn
    have hk := hs k
    have hsc := scaled k
    unfold pixelCenter
    generalize g.imageToIndexReal image k = r at *
    obtain ⟨t1, h1, e1⟩ := fl_sc ((n : ℚ) - r)
    obtain ⟨t2, h2, e2⟩ := fl_sc (g.scale k * (((n : ℚ) - r) * t1))
    rw [e1, e2]
    have hT := (h1.mul h2).apply (by norm_num) ((n : ℚ) - r)
    push_cast at hT
    have e : g.scale k * (((n : ℚ) - r) * t1) * t2 - (n * g.scale k + g.offset k - image k) =
        g.scale k * (((n : ℚ) - r) * (t1 * t2) - (n - r)) - (g.scale k * r + g.offset k - image k) := by ring
    rw [e]
    refine (abs_sub _ _).trans ?_
    rw [abs_mul, abs_of_pos hk]
    have h3 : g.scale k * |((n : ℚ) - r) * (t1 * t2) - (n - r)| ≤ g.scale k * (2 / 2 ^ 23) := mul_le_mul_of_nonneg_left (by linarith) hk.le
    linarith
  have fl0 : ∀ r : ℚ, |((⌊r⌋ : Int) : ℚ) - r| ≤ 1 := fun r => by
    rw [abs_le]; constructor <;> linarith [Int.floor_le r, Int.lt_floor_add_one r]
  have ce0 : ∀ r : ℚ, |((⌈r⌉ : Int) : ℚ) - r| ≤ 1 := fun r => by
    rw [abs_le]; constructor <;> linarith [Int.le_ceil r, Int.ceil_lt_add_one r]
  refine ⟨rfl, ⟨fun k => ⌊g.imageToIndexReal image k⌋, fun k => ⌈g.imageToIndexReal image k⌉, rfl, fun k => ?_⟩, ?_⟩
  · have hsc := abs_le.1 (scaled k)
    have hk := hs k
    dsimp only
    refine ⟨Int.floor_le_ceil _, Int.ceil_le_floor_add_one _, ?_, ?_⟩
    · have := mul_le_mul_of_nonneg_left (Int.floor_le (g.imageToIndexReal image k)) hk.le
      unfold pixelCenter
      linarith [hsc.2, mul_comm (g.scale k) (⌊g.imageToIndexReal image k⌋ : ℚ)]
    · have := mul_le_mul_of_nonneg_left (Int.le_ceil (g.imageToIndexReal image k)) hk.le
      unfold pixelCenter
      linarith [hsc.1, mul_comm (g.scale k) (⌈g.imageToIndexReal image k⌉ : ℚ)]
  · intro io hio k
    simp only [Single.Grid.imageToNearestIndicesAndOffsets, Single.Grid.imageToNearestIndices, List.map_cons, List.map_nil, List.mem_cons, List.not_mem_nil, or_false] at hio
    rcases hio with rfl | rfl | rfl | rfl
    · fin_cases k
      · exact off 0 _ (fl0 _)
      · exact off 1 _ (fl0 _)
    · fin_cases k
      · exact off 0 _ (ce0 _)
      · exact off 1 _ (fl0 _)
    · fin_cases k
      · exact off 0 _ (fl0 _)
      · exact off 1 _ (ce0 _)
    · fin_cases k
      · exact off 0 _ (ce0 _)
      · exact off 1 _ (ce0 _)

/-- **The squared distance in the image of a camera** is a float that is not negative, with a relative error of two roundings. -/
theorem C96_camera_distance (o : Point 2) : 0 ≤ Single.pinholeErrorSquared o ∧ IsFloat (Single.pinholeErrorSquared o) ∧
    |Single.pinholeErrorSquared o - (o 0 ^ 2 + o 1 ^ 2)| ≤ (o 0 ^ 2 + o 1 ^ 2) / 2 ^ 22 := by
  have h0 := fl_pos_near (mul_self_nonneg (o 0))
  have h1 := fl_pos_near (mul_self_nonneg (o 1))
  have n0 := mul_self_nonneg (o 0)
  have n1 := mul_self_nonneg (o 1)
  have p0 : 0 ≤ fl (o 0 * o 0) := le_trans (mul_nonneg n0 (by norm_num)) h0.1
  have p1 : 0 ≤ fl (o 1 * o 1) := le_trans (mul_nonneg n1 (by norm_num)) h1.1
  have h2 := fl_pos_near (add_nonneg p0 p1)
  unfold Single.pinholeErrorSquared
  refine ⟨le_trans (mul_nonneg (add_nonneg p0 p1) (by norm_num)) h2.1, isFloat_fl _, ?_⟩
  rw [pow_two, pow_two]
  generalize fl (fl (o 0 * o 0) + fl (o 1 * o 1)) = s at *
  generalize fl (o 0 * o 0) = x at *
  generalize fl (o 1 * o 1) = y at *
  generalize o 0 * o 0 = X at *
  generalize o 1 * o 1 = Y at *
  rw [abs_le]
  constructor <;> linarith [h0.1, h0.2, h1.1, h1.2, h2.1, h2.2]

/-- **The squared angle in the image of a lidar** is a float that is not negative, with a relative error of four roundings for a given cosine. -/
theorem C96_lidar_distance (cosF : ℚ → ℚ) (elevation : ℚ) (o : Point 2) : 0 ≤ Single.lidarErrorSquared cosF elevation o ∧ IsFloat (Single.lidarErrorSquared cosF elevation o) ∧
    |Single.lidarErrorSquared cosF elevation o - (o 0 ^ 2 + (cosF elevation * o 1) ^ 2)| ≤ (o 0 ^ 2 + (cosF elevation * o 1) ^ 2) / 2 ^ 21 := by
  have h0 := fl_pos_near (mul_self_nonneg (o 0))
  have h1 := fl_pos_near (mul_self_nonneg (o 1))
  have hc := fl_pos_near (mul_self_nonneg (cosF elevation))
  have n0 := mul_self_nonneg (o 0)
  have n1 := mul_self_nonneg (o 1)
  have nc := mul_self_nonneg (cosF elevation)
  have p0 : 0 ≤ fl (o 0 * o 0) := le_trans (mul_nonneg n0 (by norm_num)) h0.1
  have p1 : 0 ≤ fl (o 1 * o 1) := le_trans (mul_nonneg n1 (by norm_num)) h1.1
  have pc : 0 ≤ fl (cosF elevation * cosF elevation) := le_trans (mul_nonneg nc (by norm_num)) hc.1
  have h3 := fl_pos_near (mul_nonneg pc p1)
  have p3 : 0 ≤ fl (fl (cosF elevation * cosF elevation) * fl (o 1 * o 1)) := le_trans (mul_nonneg (mul_nonneg pc p1) (by norm_num)) h3.1
  have h2 := fl_pos_near (add_nonneg p0 p3)
  unfold Single.lidarErrorSquared
  refine ⟨le_trans (mul_nonneg (add_nonneg p0 p3) (by norm_num)) h2.1, isFloat_fl _, ?_⟩
  have e : (cosF elevation * o 1) ^ 2 = (cosF elevation * cosF elevation) * (o 1 * o 1) := by ring
  rw [pow_two (o 0), e]
  dsimp only
  generalize fl (fl (o 0 * o 0) + fl (fl (cosF elevation * cosF elevation) * fl (o 1 * o 1))) = s at *
  generalize fl (fl (cosF elevation * cosF elevation) * fl (o 1 * o 1)) = z at *
  generalize fl (cosF elevation * cosF elevation) = c at *
  generalize fl (o 0 * o 0) = x at *
  generalize fl (o 1 * o 1) = y at *
  generalize o 0 * o 0 = X at *
  generalize o 1 * o 1 = Y at *
  generalize cosF elevation * cosF elevation = C at *
  have lo : C * Y * (1 - 1 / 2 ^ 24) ^ 2 ≤ c * y := by
    calc _ = (C * (1 - 1 / 2 ^ 24)) * (Y * (1 - 1 / 2 ^ 24)) := by ring
      _ ≤ c * y := mul_le_mul hc.1 h1.1 (mul_nonneg n1 (by norm_num)) pc
  have hi : c * y ≤ C * Y * (1 + 1 / 2 ^ 24) ^ 2 := by
    calc c * y ≤ (C * (1 + 1 / 2 ^ 24)) * (Y * (1 + 1 / 2 ^ 24)) := mul_le_mul hc.2 h1.2 p1 (mul_nonneg nc (by norm_num))
      _ = _ := by ring
  have nCY : 0 ≤ C * Y := mul_nonneg nc n1
  generalize c * y = w at *
  generalize C * Y = W at *
  norm_num at lo hi
  rw [abs_le]
  constructor <;> linarith [h0.1, h0.2, h2.1, h2.2, h3.1, h3.2]

/-- **In line with a pixel.** A cell whose rounded image coordinates are those of the centre of a pixel is updated by this pixel four times. -/
theorem C96_centered (logF : ℚ → ℚ) (c : Single.RayConfig) (g : Single.Grid) (im : Image ℚ) (image : Point 2) (depth : ℚ) (i : Idx2)
    (h0 : g.imageToIndexReal image 0 = i.1) (h1 : g.imageToIndexReal image 1 = i.2) :
    g.imageToNearestIndices image = List.replicate 4 i ∧ c.updateAll logF g im image depth = Single.sumUpdates (List.replicate 4 (c.beamUpdate logF im depth i)) := by
  have e : g.imageToNearestIndices image = List.replicate 4 i := by
    unfold Single.Grid.imageToNearestIndices
    simp only [h0, h1, Int.floor_intCast, Int.ceil_intCast]
    rfl
  refine ⟨e, ?_⟩
  unfold Single.RayConfig.updateAll
  rw [e, List.map_replicate]

/-- **The continuous beam with the nearest pixel.** Nothing outside the image; inside it the update is finite, has the sign of the measurement and is close to the exact one for
the rounded square of the distance in the image. -/
theorem C96_beam_nearest (logF : ℚ → ℚ) (hl : IsLogSingle logF) (sqrtF : ℚ → ℚ) (hq : IsSqrtSingle sqrtF) (c : Single.BeamConfig) (hc : c.Scaled) (g : Single.Grid)
    (errSq : Point 2 → ℚ) (he : ∀ o, 0 ≤ errSq o ∧ IsFloat (errSq o)) (im : Image ℚ) (him : ∀ i m, im.at i = some m → IsFloat m) (offsets : Image (Point 2))
    (hsize : offsets.rows = im.rows ∧ offsets.cols = im.cols) (image : Point 2) (depth : ℚ) (hd : IsFloat depth) :
    let i := g.imageToNearestIndex image
    ∃ u : ℚ, c.updateNearest logF sqrtF g errSq im offsets image depth = some u ∧
      match im.at (i 0, i 1) with
      | none => u = 0
      | some m => (depth ≤ m → u ≤ 0) ∧ (m ≤ depth → 0 ≤ u) ∧ ∃ (off : Point 2) (v : ℝ), offsets.at (i 0, i 1) = some off ∧
          c.exact.beamUpdate depth (errSq fun k => fl (off k - (g.imageToNearestIndexAndOffset image).2 k)) m = some v ∧
          |(u : ℝ) - v| ≤ 1 / 2 ^ 12 / (1 - c.scalingFree) := by
  intro i
  obtain ⟨free, hfree, -⟩ := ray_free_nonpos hl (c := ⟨c.rangeSigma, c.scalingFree, c.scalingOccupied⟩) ⟨hc.sigma.2, hc.free, hc.occupied⟩
  have hi : (g.imageToNearestIndexAndOffset image).1 = i := rfl
  unfold Single.BeamConfig.updateNearest
  simp only [hi]
  cases h : im.at (i 0, i 1) with
  | none => exact ⟨0, rfl, rfl⟩
  | some m =>
    have ho : offsets.at (i 0, i 1) = some (offsets.px (i 0).toNat (i 1).toNat) := by
      unfold Image.at at h ⊢
      have e : offsets.inBounds (i 0, i 1) = im.inBounds (i 0, i 1) := by
        unfold Image.inBounds
        rw [hsize.1, hsize.2]
      rw [e]
      split at h
      · rename_i hb
        rw [if_pos hb]
      · exact absurd h (by simp)
    rw [ho]
    obtain ⟨u, v, h1, h2, -, h4, -, h6, h7⟩ := beam_one hl hq hc hd hfree
      (he fun k => fl (offsets.px (i 0).toNat (i 1).toNat k - (g.imageToNearestIndexAndOffset image).2 k)).1
      (he fun k => fl (offsets.px (i 0).toNat (i 1).toNat k - (g.imageToNearestIndexAndOffset image).2 k)).2 (him _ m h)
    exact ⟨u, h1, h6, h7, _, v, rfl, h2, h4⟩

/-- **Neighbours outside the image.** They should add nothing, but with all neighbours the continuous beam marks a cell near the sensor as occupied although the image is empty. -/
theorem C96_beam_outside_fails : ∃ (c : Single.BeamConfig) (im : Image ℚ) (offsets : Image (Point 2)) (image : Point 2) (depth : ℚ), c.Scaled ∧ 0 < depth ∧ im.rows = 0 ∧
    im.cols = 0 ∧ ∀ logF sqrtF, IsLogSingle logF → IsSqrtSingle sqrtF →
      ∃ u, c.updateAll logF sqrtF Single.Grid.pinhole Single.pinholeErrorSquared im offsets image depth = some u ∧ 0 < u := by
  refine ⟨⟨1, 1, 1 / 2, 1 / 2⟩, ⟨0, 0, fun _ _ => 0⟩, ⟨0, 0, fun _ _ _ => 0⟩, fun _ => 0, 1,
    ⟨⟨by norm_num, by norm_num⟩, ⟨by norm_num, by norm_num, 1, -1, by norm_num, by norm_num⟩, by norm_num, by norm_num⟩, by norm_num, rfl, rfl, fun logF sqrtF hl hq => ?_⟩
  have h0 : sqrtF 0 = 0 := by
    have := hq 0 le_rfl
    rw [Rat.cast_zero, Real.sqrt_zero, sub_zero, zero_div] at this
    exact_mod_cast abs_nonpos_iff.1 this
  have hp : (⟨1, 1, 1 / 2, 1 / 2⟩ : Single.BeamConfig).probability sqrtF 1 0 0 = (⟨1, 1, 1 / 2, 1 / 2⟩ : Single.BeamConfig).probability (fun _ => 0) 1 0 0 := by
    unfold Single.BeamConfig.probability
    simp only [h0]
  have b1 : 0 < (⟨1, 1, 1 / 2, 1 / 2⟩ : Single.BeamConfig).probability (fun _ => 0) 1 0 0 := by decide +kernel
  have b2 : (⟨1, 1, 1 / 2, 1 / 2⟩ : Single.BeamConfig).probability (fun _ => 0) 1 0 0 < 1 := by decide +kernel
  have b3 : 1 < oddsOf ((⟨1, 1, 1 / 2, 1 / 2⟩ : Single.BeamConfig).probability (fun _ => 0) 1 0 0) := by decide +kernel
  have hu : (⟨1, 1, 1 / 2, 1 / 2⟩ : Single.BeamConfig).beamUpdate logF sqrtF 1 0 0 =
      some (logF (oddsOf ((⟨1, 1, 1 / 2, 1 / 2⟩ : Single.BeamConfig).probability (fun _ => 0) 1 0 0))) := by
    unfold Single.BeamConfig.beamUpdate
    rw [if_neg (by decide +kernel), hp, logOdds_eq logF b1 b2]
  generalize oddsOf ((⟨1, 1, 1 / 2, 1 / 2⟩ : Single.BeamConfig).probability (fun _ => 0) 1 0 0) = x at b3 hu
  have hx : 0 < logF x := by
    have hlog : 0 < Real.log x := Real.log_pos (by exact_mod_cast b3)
    have := abs_le.1 (hl.accurate x (by linarith))
    rw [abs_of_pos hlog] at this
    have h2 : (0 : ℝ) < logF x := by linarith [this.1]
    exact_mod_cast h2
  have hall : (Single.Grid.pinhole.imageToNearestIndicesAndOffsets fun _ => 0).map (fun io => Single.neighborBeam (⟨0, 0, fun _ _ => 0⟩ : Image ℚ) ⟨0, 0, fun _ _ _ => 0⟩ io)
      = List.replicate 4 (0, ![0, 0]) := by decide +kernel
  have e : (⟨1, 1, 1 / 2, 1 / 2⟩ : Single.BeamConfig).updateAll logF sqrtF Single.Grid.pinhole Single.pinholeErrorSquared ⟨0, 0, fun _ _ => 0⟩ ⟨0, 0, fun _ _ _ => 0⟩ (fun _ => 0) 1 =
      some (fl (fl (fl (fl (logF x) + logF x) + logF x) + logF x)) := by
    rw [← sum_four]
    unfold Single.BeamConfig.updateAll
    have : (fun io : Idx2 × Point 2 =>
          let b := Single.neighborBeam (⟨0, 0, fun _ _ => 0⟩ : Image ℚ) ⟨0, 0, fun _ _ _ => 0⟩ io
          (⟨1, 1, 1 / 2, 1 / 2⟩ : Single.BeamConfig).beamUpdate logF sqrtF 1 (Single.pinholeErrorSquared b.2) b.1) =
        (fun b : ℚ × Point 2 => (⟨1, 1, 1 / 2, 1 / 2⟩ : Single.BeamConfig).beamUpdate logF sqrtF 1 (Single.pinholeErrorSquared b.2) b.1) ∘
          (fun io => Single.neighborBeam (⟨0, 0, fun _ _ => 0⟩ : Image ℚ) ⟨0, 0, fun _ _ _ => 0⟩ io) := rfl
    rw [this, ← List.map_map, hall, List.map_replicate]
    have z : Single.pinholeErrorSquared ![0, 0] = 0 := by decide +kernel
    dsimp only
    rw [z, hu]
    rfl
  refine ⟨_, e, ?_⟩
  have pos : ∀ y : ℚ, 0 < y → 0 < fl y := fun y hy => lt_of_lt_of_le (mul_pos hy (by norm_num)) (fl_pos_near hy.le).1
  have p1 := pos _ hx
  have p2 := pos _ (add_pos p1 hx)
  have p3 := pos _ (add_pos p2 hx)
  exact pos _ (add_pos p3 hx)

/-! ## Examples -/

namespace SingleNeighbors

/-- A wall five metres away, with a post in front of it in the second column. -/
def exampleImage : Image ℚ := ⟨4, 4, fun _ j => if j = 1 then 4 else 5⟩

theorem exampleImage_float (i : Idx2) (m : ℚ) (h : exampleImage.at i = some m) : IsFloat m := by
  unfold Image.at at h
  split at h
  · have e := (Option.some.inj h).symm
    rw [e]
    unfold exampleImage
    dsimp only
    split
    · exact ⟨4, 0, by norm_num, by norm_num⟩
    · exact ⟨5, 0, by norm_num, by norm_num⟩
  · exact absurd h (by simp)

end SingleNeighbors

example : (Single.Grid.pinhole.imageToNearestIndices ![5 / 4, 3 / 2]).map exampleImage.at = [some 4, some 4, some 5, some 5] := by decide +kernel

example : ∃ (u free : ℚ) (v : ℝ), Single.RayConfig.updateAll exampleLog ⟨1 / 8, 1 / 4, 1 / 2⟩ Single.Grid.pinhole exampleImage ![5 / 4, 3 / 2] (31 / 8) = some u ∧
    Single.RayConfig.freeSpaceUpdate exampleLog ⟨1 / 8, 1 / 4, 1 / 2⟩ = some free ∧ 4 * free * (1 + 1 / 2 ^ 22) ≤ u ∧ u ≤ 0 ∧ |(u : ℝ) - v| ≤ 1 / 600 := by
  obtain ⟨u, free, v, h1, h2, h3, h4, -, -, h6⟩ := C96_ray exampleLog exampleLog_ok ⟨1 / 8, 1 / 4, 1 / 2⟩
    ⟨by norm_num, ⟨by norm_num, by norm_num, 1, -2, by norm_num, by norm_num⟩, by norm_num, by norm_num⟩ Single.Grid.pinhole exampleImage exampleImage_float ![5 / 4, 3 / 2]
    (31 / 8) ⟨31, -3, by norm_num, by norm_num⟩
  refine ⟨u, free, v, h1, h2, h3, h4 ?_, h6.trans (by norm_num)⟩
  have : ∀ i ∈ Single.Grid.pinhole.imageToNearestIndices ![5 / 4, 3 / 2], ∀ m ∈ exampleImage.at i, (31 / 8 : ℚ) ≤ m := by decide +kernel
  exact fun i hi m hm => this i hi m hm

example : ∃ (u : ℚ) (v : ℝ), Single.BeamConfig.updateAll exampleLog exampleSqrt ⟨1 / 2, 1 / 8, 1 / 4, 1 / 2⟩ Single.Grid.pinhole Single.pinholeErrorSquared exampleImage
      ⟨4, 4, fun _ _ _ => 1 / 8⟩ ![5 / 4, 3 / 2] (31 / 8) = some u ∧ u ≤ 0 ∧ |(u : ℝ) - v| ≤ 1 / 600 := by
  obtain ⟨u, -, v, h1, -, -, h4, -, -, h6⟩ := C96_beam_partial exampleLog exampleLog_ok exampleSqrt exampleSqrt_ok ⟨1 / 2, 1 / 8, 1 / 4, 1 / 2⟩
    ⟨⟨by norm_num, by norm_num⟩, ⟨by norm_num, by norm_num, 1, -2, by norm_num, by norm_num⟩, by norm_num, by norm_num⟩ Single.Grid.pinhole Single.pinholeErrorSquared
    (fun o => ⟨(C96_camera_distance o).1, (C96_camera_distance o).2.1⟩) exampleImage exampleImage_float ⟨4, 4, fun _ _ _ => 1 / 8⟩ ![5 / 4, 3 / 2]
    (31 / 8) ⟨31, -3, by norm_num, by norm_num⟩
  refine ⟨u, v, h1, h4 ?_, h6.trans (by norm_num)⟩
  decide +kernel

example : ∃ u : ℚ, Single.BeamConfig.updateNearest exampleLog exampleSqrt ⟨1 / 2, 1 / 8, 1 / 4, 1 / 2⟩ Single.Grid.pinhole Single.pinholeErrorSquared exampleImage
      ⟨4, 4, fun _ _ _ => 1 / 8⟩ ![5 / 4, 5 / 4] (31 / 8) = some u ∧ u ≤ 0 := by
  obtain ⟨u, h1, h2⟩ := C96_beam_nearest exampleLog exampleLog_ok exampleSqrt exampleSqrt_ok ⟨1 / 2, 1 / 8, 1 / 4, 1 / 2⟩
    ⟨⟨by norm_num, by norm_num⟩, ⟨by norm_num, by norm_num, 1, -2, by norm_num, by norm_num⟩, by norm_num, by norm_num⟩ Single.Grid.pinhole Single.pinholeErrorSquared
    (fun o => ⟨(C96_camera_distance o).1, (C96_camera_distance o).2.1⟩) exampleImage exampleImage_float ⟨4, 4, fun _ _ _ => 1 / 8⟩ ⟨rfl, rfl⟩ ![5 / 4, 5 / 4]
    (31 / 8) ⟨31, -3, by norm_num, by norm_num⟩
  have e : exampleImage.at (Single.Grid.pinhole.imageToNearestIndex ![5 / 4, 5 / 4] 0, Single.Grid.pinhole.imageToNearestIndex ![5 / 4, 5 / 4] 1) = some 4 := by decide +kernel
  rw [e] at h2
  exact ⟨u, h1, h2.1 (by norm_num)⟩

example : (Single.Grid.pinhole).imageToNearestIndices ![5 / 4, 3] = [(1, 3), (2, 3), (1, 3), (2, 3)] := by decide +kernel

example : ((Single.Grid.pinhole).imageToNearestIndicesAndOffsets ![5 / 4, 3]).map (fun io => (io.2 0, io.2 1)) = [(-1 / 4, 0), (3 / 4, 0), (-1 / 4, 0), (3 / 4, 0)] := by
  decide +kernel

end Wavemap
