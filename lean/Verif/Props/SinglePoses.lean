import Verif.Model.SinglePoses
import Verif.Props.SingleCamera
import Verif.Model.Poses
/-!
# C91: poses in single precision
-/
namespace Wavemap
namespace SinglePoses
open Single

/-! ## Specification -/

/-- The squared norm of a quaternion, without rounding. -/
def normSq (q : Single.Quat) : ℚ := q.w ^ 2 + q.x ^ 2 + q.y ^ 2 + q.z ^ 2

/-- A quaternion applied to a vector, without rounding: the usual matrix. -/
def exactRotate (q : Single.Quat) (v : Point 3) : Point 3 :=
  ![(1 - 2 * (q.y ^ 2 + q.z ^ 2)) * v 0 + 2 * (q.x * q.y - q.w * q.z) * v 1 + 2 * (q.x * q.z + q.w * q.y) * v 2,
    2 * (q.x * q.y + q.w * q.z) * v 0 + (1 - 2 * (q.x ^ 2 + q.z ^ 2)) * v 1 + 2 * (q.y * q.z - q.w * q.x) * v 2,
    2 * (q.x * q.z - q.w * q.y) * v 0 + 2 * (q.y * q.z + q.w * q.x) * v 1 + (1 - 2 * (q.x ^ 2 + q.y ^ 2)) * v 2]

/-! ## Proofs -/

theorem fl_abs (x : ℚ) : |fl x| ≤ |x| + |x| / 2 ^ 24 := by
  have := abs_add_le (fl x - x) x
  rw [sub_add_cancel] at this
  linarith [fl_err x]

theorem fl_near {x y B e : ℚ} (h : |x - y| ≤ e) (hB : |y| ≤ B) : |fl x - y| ≤ e + (B + e) / 2 ^ 24 := by
  have h1 := abs_add_le (fl x - x) (x - y)
  rw [sub_add_sub_cancel] at h1
  have h2 := abs_add_le (x - y) y
  rw [sub_add_cancel] at h2
  have h3 := fl_err x
  have h4 : |x| / 2 ^ 24 ≤ (B + e) / 2 ^ 24 := div_le_div_of_nonneg_right (by linarith) (by norm_num)
  linarith

theorem mul_near {c x y B e : ℚ} (hc : |c| ≤ 101 / 100) (h : |x - y| ≤ e) (hB : |y| ≤ B) :
    |fl (c * x) - c * y| ≤ 101 / 100 * e + (101 / 100 * B + 101 / 100 * e) / 2 ^ 24 ∧ |c * y| ≤ 101 / 100 * B := by
  have h1 : |c * y| ≤ 101 / 100 * B := by
    rw [abs_mul]
    exact mul_le_mul hc hB (abs_nonneg _) (by norm_num)
  refine ⟨fl_near ?_ h1, h1⟩
  rw [← mul_sub, abs_mul]
  exact mul_le_mul hc h (abs_nonneg _) (by norm_num)

/-- One component of a cross product. -/
theorem cross_near {a b x y x' y' B e : ℚ} (ha : |a| ≤ 101 / 100) (hb : |b| ≤ 101 / 100) (hx : |x - x'| ≤ e) (hy : |y - y'| ≤ e) (hx' : |x'| ≤ B) (hy' : |y'| ≤ B) :
    |fl (fl (a * x) - fl (b * y)) - (a * x' - b * y')| ≤ 203 / 100 * e + 410 / 100 * B / 2 ^ 24 ∧ |a * x' - b * y'| ≤ 202 / 100 * B := by
  obtain ⟨h1, h2⟩ := mul_near ha hx hx'
  obtain ⟨h3, h4⟩ := mul_near hb hy hy'
  have he : 0 ≤ e := (abs_nonneg _).trans hx
  have hB : 0 ≤ B := (abs_nonneg _).trans hx'
  have h5 : |a * x' - b * y'| ≤ 202 / 100 * B := (abs_sub _ _).trans (by linarith)
  refine ⟨(fl_near (e := 2 * (101 / 100 * e + (101 / 100 * B + 101 / 100 * e) / 2 ^ 24)) ?_ h5).trans ?_, h5⟩
  · have e1 : fl (a * x) - fl (b * y) - (a * x' - b * y') = (fl (a * x) - a * x') - (fl (b * y) - b * y') := by ring
    rw [e1]
    exact (abs_sub _ _).trans (by linarith)
  · linarith

/-- One component of a rotated vector; `r` is its exact value. -/
theorem rotate_near {w a b v c0 c1 c2 u1 u2 r0 r1 r2 M : ℚ} (hw : |w| ≤ 101 / 100) (ha : |a| ≤ 101 / 100) (hb : |b| ≤ 101 / 100) (hv : |v| ≤ M)
    (h0 : |c0 - r0| ≤ 410 / 100 * M / 2 ^ 24 ∧ |r0| ≤ 202 / 100 * M) (h1 : |c1 - r1| ≤ 410 / 100 * M / 2 ^ 24 ∧ |r1| ≤ 202 / 100 * M)
    (h2 : |c2 - r2| ≤ 410 / 100 * M / 2 ^ 24 ∧ |r2| ≤ 202 / 100 * M) (hu1 : u1 = fl (c1 + c1)) (hu2 : u2 = fl (c2 + c2))
    (hr : |v + w * (2 * r0) + (a * (2 * r2) - b * (2 * r1))| ≤ 2 * M) :
    |fl (fl (v + fl (w * fl (c0 + c0))) + fl (fl (a * u2) - fl (b * u1))) - (v + w * (2 * r0) + (a * (2 * r2) - b * (2 * r1)))| ≤ 66 * M / 2 ^ 24 := by
  have hM : 0 ≤ M := (abs_nonneg _).trans hv
  have dbl : ∀ c r : ℚ, |c - r| ≤ 410 / 100 * M / 2 ^ 24 ∧ |r| ≤ 202 / 100 * M → |fl (c + c) - 2 * r| ≤ 1225 / 100 * M / 2 ^ 24 ∧ |2 * r| ≤ 404 / 100 * M := by
    intro c r ⟨h, h'⟩
    have hb : |2 * r| ≤ 404 / 100 * M := by rw [abs_mul, abs_two]; linarith
    refine ⟨(fl_near (e := 2 * (410 / 100 * M / 2 ^ 24)) ?_ hb).trans ?_, hb⟩
    · have e : c + c - 2 * r = 2 * (c - r) := by ring
      rw [e, abs_mul, abs_two]
      linarith
    · linarith
  obtain ⟨d0, b0⟩ := dbl c0 r0 h0
  obtain ⟨d1, b1⟩ := dbl c1 r1 h1
  obtain ⟨d2, b2⟩ := dbl c2 r2 h2
  rw [← hu1] at d1
  rw [← hu2] at d2
  obtain ⟨m1, m2⟩ := mul_near hw d0 b0
  obtain ⟨x1, x2⟩ := cross_near ha hb d2 d1 b2 b1
  have s2 : |v + w * (2 * r0)| ≤ 509 / 100 * M := (abs_add_le _ _).trans (by linarith)
  have s1 : |fl (v + fl (w * fl (c0 + c0))) - (v + w * (2 * r0))| ≤ 216 / 10 * M / 2 ^ 24 := by
    refine (fl_near (e := 165 / 10 * M / 2 ^ 24) ?_ s2).trans ?_
    · rw [add_sub_add_left_eq_sub]
      exact m1.trans (by linarith)
    · linarith
  refine (fl_near (e := 635 / 10 * M / 2 ^ 24) ?_ hr).trans ?_
  · have e : ∀ A B C D : ℚ, A + B - (C + D) = (A - C) + (B - D) := by intros; ring
    rw [e]
    exact (abs_add_le _ _).trans (by linarith)
  · linarith

/-- The components of a quaternion whose squared norm is near one. -/
theorem comp_le {q : Single.Quat} {η : ℚ} (hη : η ≤ 1 / 100) (h : |normSq q - 1| ≤ η) :
    |q.w| ≤ 101 / 100 ∧ |q.x| ≤ 101 / 100 ∧ |q.y| ≤ 101 / 100 ∧ |q.z| ≤ 101 / 100 := by
  have h1 := (abs_le.mp h).2
  unfold normSq at h1
  refine ⟨?_, ?_, ?_, ?_⟩ <;>
  · apply abs_le_of_sq_le_sq _ (by norm_num)
    nlinarith [sq_nonneg q.w, sq_nonneg q.x, sq_nonneg q.y, sq_nonneg q.z]

/-- A product of a row that is almost of length one with a bounded vector. -/
theorem row_le {a b c x y z M : ℚ} (hr : a ^ 2 + b ^ 2 + c ^ 2 ≤ 4 / 3) (hx : |x| ≤ M) (hy : |y| ≤ M) (hz : |z| ≤ M) : |a * x + b * y + c * z| ≤ 2 * M := by
  have hM : 0 ≤ M := (abs_nonneg _).trans hx
  apply abs_le_of_sq_le_sq _ (by linarith)
  have h1 : x ^ 2 ≤ M ^ 2 := sq_le_sq' (abs_le.mp hx).1 (abs_le.mp hx).2
  have h2 : y ^ 2 ≤ M ^ 2 := sq_le_sq' (abs_le.mp hy).1 (abs_le.mp hy).2
  have h3 : z ^ 2 ≤ M ^ 2 := sq_le_sq' (abs_le.mp hz).1 (abs_le.mp hz).2
  have hc : (a * x + b * y + c * z) ^ 2 ≤ (a ^ 2 + b ^ 2 + c ^ 2) * (x ^ 2 + y ^ 2 + z ^ 2) := by
    nlinarith [sq_nonneg (a * y - b * x), sq_nonneg (a * z - c * x), sq_nonneg (b * z - c * y)]
  have h4 : (a ^ 2 + b ^ 2 + c ^ 2) * (x ^ 2 + y ^ 2 + z ^ 2) ≤ 4 / 3 * (3 * M ^ 2) :=
    mul_le_mul hr (by linarith) (by positivity) (by norm_num)
  nlinarith

/-- A rotated vector is not much longer. -/
theorem exact_le {q : Single.Quat} {η M : ℚ} (hη : η ≤ 1 / 100) (h : |normSq q - 1| ≤ η) {v : Point 3} (hv : ∀ k, |v k| ≤ M) (k : Fin 3) :
    |exactRotate q v k| ≤ 2 * M := by
  obtain ⟨h1, h2⟩ := abs_le.mp h
  obtain ⟨w, x, y, z⟩ := q
  unfold normSq at h1 h2
  dsimp only at h1 h2
  -- the squared length of a row is `1 + 4 (1 - n) (c ^ 2 - (x ^ 2 + y ^ 2 + z ^ 2))`
  have hs : ∀ c : ℚ, 0 ≤ c ^ 2 → c ^ 2 ≤ x ^ 2 + y ^ 2 + z ^ 2 →
      1 + 4 * (1 - (w ^ 2 + x ^ 2 + y ^ 2 + z ^ 2)) * (c ^ 2 - (x ^ 2 + y ^ 2 + z ^ 2)) ≤ 4 / 3 := by
    intro c h3 h4
    have h5 : 0 ≤ x ^ 2 + y ^ 2 + z ^ 2 - c ^ 2 := by linarith
    have h6 : x ^ 2 + y ^ 2 + z ^ 2 - c ^ 2 ≤ 101 / 100 := by nlinarith [sq_nonneg w]
    have h7 : (w ^ 2 + x ^ 2 + y ^ 2 + z ^ 2 - 1) * (x ^ 2 + y ^ 2 + z ^ 2 - c ^ 2) ≤ 1 / 100 * (101 / 100) :=
      (mul_le_mul_of_nonneg_right (by linarith : w ^ 2 + x ^ 2 + y ^ 2 + z ^ 2 - 1 ≤ 1 / 100) h5).trans (by linarith)
    nlinarith
  fin_cases k
  · exact row_le (le_of_eq_of_le (by ring) (hs x (sq_nonneg _) (by nlinarith [sq_nonneg y, sq_nonneg z]))) (hv 0) (hv 1) (hv 2)
  · exact row_le (le_of_eq_of_le (by ring) (hs y (sq_nonneg _) (by nlinarith [sq_nonneg x, sq_nonneg z]))) (hv 0) (hv 1) (hv 2)
  · exact row_le (le_of_eq_of_le (by ring) (hs z (sq_nonneg _) (by nlinarith [sq_nonneg x, sq_nonneg y]))) (hv 0) (hv 1) (hv 2)

/-- The rounded rotation. -/
theorem rotate_err {q : Single.Quat} {η M : ℚ} (hη : η ≤ 1 / 100) (h : |normSq q - 1| ≤ η) {v : Point 3} (hv : ∀ k, |v k| ≤ M) (k : Fin 3) :
    |q.rotate v k - exactRotate q v k| ≤ 66 * M / 2 ^ 24 := by
  obtain ⟨hw, hx, hy, hz⟩ := comp_le hη h
  have he := exact_le hη h hv k
  have c : ∀ (a b : ℚ) (i j : Fin 3), |a| ≤ 101 / 100 → |b| ≤ 101 / 100 →
      |fl (fl (a * v i) - fl (b * v j)) - (a * v i - b * v j)| ≤ 410 / 100 * M / 2 ^ 24 ∧ |a * v i - b * v j| ≤ 202 / 100 * M := by
    intro a b i j ha hb
    have := cross_near ha hb (x := v i) (x' := v i) (y := v j) (y' := v j) (e := 0) (by simp) (by simp) (hv i) (hv j)
    rw [mul_zero, zero_add] at this
    exact this
  have c0 := c q.y q.z 2 1 hy hz
  have c1 := c q.z q.x 0 2 hz hx
  have c2 := c q.x q.y 1 0 hx hy
  fin_cases k
  · have e : exactRotate q v 0 = v 0 + q.w * (2 * (q.y * v 2 - q.z * v 1)) + (q.y * (2 * (q.x * v 1 - q.y * v 0)) - q.z * (2 * (q.z * v 0 - q.x * v 2))) := by
      show _ * v 0 + _ * v 1 + _ * v 2 = _
      ring
    have := rotate_near hw hy hz (hv 0) c0 c1 c2 rfl rfl (by rw [← e]; exact he)
    rw [← e] at this
    exact this
  · have e : exactRotate q v 1 = v 1 + q.w * (2 * (q.z * v 0 - q.x * v 2)) + (q.z * (2 * (q.y * v 2 - q.z * v 1)) - q.x * (2 * (q.x * v 1 - q.y * v 0))) := by
      show _ * v 0 + _ * v 1 + _ * v 2 = _
      ring
    have := rotate_near hw hz hx (hv 1) c1 c2 c0 rfl rfl (by rw [← e]; exact he)
    rw [← e] at this
    exact this
  · have e : exactRotate q v 2 = v 2 + q.w * (2 * (q.x * v 1 - q.y * v 0)) + (q.x * (2 * (q.z * v 0 - q.x * v 2)) - q.y * (2 * (q.y * v 2 - q.z * v 1))) := by
      show _ * v 0 + _ * v 1 + _ * v 2 = _
      ring
    have := rotate_near hw hx hy (hv 2) c2 c0 c1 rfl rfl (by rw [← e]; exact he)
    rw [← e] at this
    exact this

theorem exact_add (q : Single.Quat) (u v : Point 3) (k : Fin 3) : exactRotate q (fun k => u k + v k) k = exactRotate q u k + exactRotate q v k := by
  fin_cases k
  all_goals
    show _ * (u 0 + v 0) + _ * (u 1 + v 1) + _ * (u 2 + v 2) = (_ * u 0 + _ * u 1 + _ * u 2) + (_ * v 0 + _ * v 1 + _ * v 2)
    ring

theorem exact_neg (q : Single.Quat) (v : Point 3) (k : Fin 3) : exactRotate q (fun k => -v k) k = -exactRotate q v k := by
  fin_cases k
  all_goals
    show _ * (-v 0) + _ * (-v 1) + _ * (-v 2) = -(_ * v 0 + _ * v 1 + _ * v 2)
    ring

theorem normSq_inverse (q : Single.Quat) : normSq q.inverse = normSq q := by
  simp only [normSq, Single.Quat.inverse, neg_sq]

/-- Rotating back, without rounding. -/
theorem exact_inverse {q : Single.Quat} {η M : ℚ} (hη : η ≤ 1 / 100) (h : |normSq q - 1| ≤ η) {v : Point 3} (hv : ∀ k, |v k| ≤ M) (k : Fin 3) :
    |exactRotate q.inverse (exactRotate q v) k - v k| ≤ 17 * η * M := by
  obtain ⟨hw, hx, hy, hz⟩ := comp_le hη h
  have hM : 0 ≤ M := (abs_nonneg _).trans (hv 0)
  have hη0 : 0 ≤ η := (abs_nonneg _).trans h
  -- `q × (q × v)`
  have pr : ∀ a b c d : ℚ, ∀ B : ℚ, |a| ≤ 101 / 100 → |b| ≤ 101 / 100 → |c| ≤ B → |d| ≤ B → |a * c - b * d| ≤ 202 / 100 * B := by
    intro a b c d B ha hb hc hd
    refine (abs_sub _ _).trans ?_
    rw [abs_mul, abs_mul]
    have h1 := mul_le_mul ha hc (abs_nonneg _) (by norm_num)
    have h2 := mul_le_mul hb hd (abs_nonneg _) (by norm_num)
    linarith
  have c0 := pr _ _ _ _ M hy hz (hv 2) (hv 1)
  have c1 := pr _ _ _ _ M hz hx (hv 0) (hv 2)
  have c2 := pr _ _ _ _ M hx hy (hv 1) (hv 0)
  have d0 := pr _ _ _ _ _ hy hz c2 c1
  have d1 := pr _ _ _ _ _ hz hx c0 c2
  have d2 := pr _ _ _ _ _ hx hy c1 c0
  have fin : ∀ D : ℚ, |D| ≤ 202 / 100 * (202 / 100 * M) → |4 * (1 - normSq q) * D| ≤ 17 * η * M := by
    intro D hD
    rw [abs_mul, abs_mul, abs_of_pos (a := (4 : ℚ)) (by norm_num), abs_sub_comm]
    have := mul_le_mul h hD (abs_nonneg _) hη0
    nlinarith [mul_nonneg hη0 hM]
  fin_cases k
  · refine le_of_eq_of_le (congrArg _ ?_) (fin _ d0)
    simp only [exactRotate, Single.Quat.inverse, normSq, Fin.zero_eta, Matrix.cons_val]
    ring
  · refine le_of_eq_of_le (congrArg _ ?_) (fin _ d1)
    simp only [exactRotate, Single.Quat.inverse, normSq, Fin.mk_one, Matrix.cons_val]
    ring
  · refine le_of_eq_of_le (congrArg _ ?_) (fin _ d2)
    simp only [exactRotate, Single.Quat.inverse, normSq, Fin.reduceFinMk, Matrix.cons_val]
    ring

/-- How a rotated vector changes with the quaternion. -/
theorem exact_lipschitz {q r : Single.Quat} {ε N : ℚ} (hq : |q.w| ≤ 101 / 100 ∧ |q.x| ≤ 101 / 100 ∧ |q.y| ≤ 101 / 100 ∧ |q.z| ≤ 101 / 100) (hε : ε ≤ 2 / 100)
    (h : |r.w - q.w| ≤ ε ∧ |r.x - q.x| ≤ ε ∧ |r.y - q.y| ≤ ε ∧ |r.z - q.z| ≤ ε) {v : Point 3} (hv : ∀ k, |v k| ≤ N) (k : Fin 3) :
    |exactRotate r v k - exactRotate q v k| ≤ 26 * ε * N := by
  have hε0 : 0 ≤ ε := (abs_nonneg _).trans h.1
  have hN : 0 ≤ N := (abs_nonneg _).trans (hv 0)
  have pr : ∀ a b a' b' : ℚ, |a| ≤ 101 / 100 → |b| ≤ 101 / 100 → |a' - a| ≤ ε → |b' - b| ≤ ε → |a' * b' - a * b| ≤ 205 / 100 * ε := by
    intro a b a' b' ha hb ha' hb'
    have e : a' * b' - a * b = a * (b' - b) + (a' - a) * b + (a' - a) * (b' - b) := by ring
    rw [e]
    refine (abs_add_le _ _).trans ?_
    have h0 := abs_add_le (a * (b' - b)) ((a' - a) * b)
    rw [abs_mul, abs_mul] at h0
    rw [abs_mul (a' - a)]
    have h1 := mul_le_mul ha hb' (abs_nonneg _) (by norm_num)
    have h2 := mul_le_mul ha' hb (abs_nonneg _) hε0
    have h3 := mul_le_mul ha' (hb'.trans hε) (abs_nonneg _) hε0
    linarith
  obtain ⟨qw, qx, qy, qz⟩ := hq
  obtain ⟨rw', rx, ry, rz⟩ := h
  have xx := abs_le.mp (pr _ _ _ _ qx qx rx rx)
  have yy := abs_le.mp (pr _ _ _ _ qy qy ry ry)
  have zz := abs_le.mp (pr _ _ _ _ qz qz rz rz)
  have xy := abs_le.mp (pr _ _ _ _ qx qy rx ry)
  have xz := abs_le.mp (pr _ _ _ _ qx qz rx rz)
  have yz := abs_le.mp (pr _ _ _ _ qy qz ry rz)
  have wx := abs_le.mp (pr _ _ _ _ qw qx rw' rx)
  have wy := abs_le.mp (pr _ _ _ _ qw qy rw' ry)
  have wz := abs_le.mp (pr _ _ _ _ qw qz rw' rz)
  have row : ∀ A B C A' B' C' : ℚ, |A' - A| ≤ 82 / 10 * ε → |B' - B| ≤ 82 / 10 * ε → |C' - C| ≤ 82 / 10 * ε →
      |(A' * v 0 + B' * v 1 + C' * v 2) - (A * v 0 + B * v 1 + C * v 2)| ≤ 26 * ε * N := by
    intro A B C A' B' C' hA hB hC
    have e : (A' * v 0 + B' * v 1 + C' * v 2) - (A * v 0 + B * v 1 + C * v 2) = (A' - A) * v 0 + (B' - B) * v 1 + (C' - C) * v 2 := by ring
    rw [e]
    refine (abs_add_le _ _).trans ?_
    have h0 := abs_add_le ((A' - A) * v 0) ((B' - B) * v 1)
    rw [abs_mul, abs_mul] at h0
    rw [abs_mul (C' - C)]
    have h1 := mul_le_mul hA (hv 0) (abs_nonneg _) (by positivity)
    have h2 := mul_le_mul hB (hv 1) (abs_nonneg _) (by positivity)
    have h3 := mul_le_mul hC (hv 2) (abs_nonneg _) (by positivity)
    nlinarith [mul_nonneg hε0 hN]
  fin_cases k
  · exact row _ _ _ _ _ _ (abs_le.mpr ⟨by linarith, by linarith⟩) (abs_le.mpr ⟨by linarith, by linarith⟩) (abs_le.mpr ⟨by linarith, by linarith⟩)
  · exact row _ _ _ _ _ _ (abs_le.mpr ⟨by linarith, by linarith⟩) (abs_le.mpr ⟨by linarith, by linarith⟩) (abs_le.mpr ⟨by linarith, by linarith⟩)
  · exact row _ _ _ _ _ _ (abs_le.mpr ⟨by linarith, by linarith⟩) (abs_le.mpr ⟨by linarith, by linarith⟩) (abs_le.mpr ⟨by linarith, by linarith⟩)

theorem squaredNorm_err {q : Single.Quat} {η : ℚ} (hη : η ≤ 1 / 100) (h : |normSq q - 1| ≤ η) : |q.squaredNorm - 1| ≤ η + 11 / 2 ^ 24 := by
  obtain ⟨t1, h1, e1⟩ := SingleCamera.fl_sc (q.x * q.x)
  obtain ⟨t2, h2, e2⟩ := SingleCamera.fl_sc (q.y * q.y)
  obtain ⟨t3, h3, e3⟩ := SingleCamera.fl_sc (q.z * q.z)
  obtain ⟨t4, h4, e4⟩ := SingleCamera.fl_sc (q.w * q.w)
  obtain ⟨t5, h5, e5⟩ := SingleCamera.fl_sc (q.x * q.x * t1 + q.y * q.y * t2)
  obtain ⟨t6, h6, e6⟩ := SingleCamera.fl_sc ((q.x * q.x * t1 + q.y * q.y * t2) * t5 + q.z * q.z * t3)
  obtain ⟨t7, h7, e7⟩ := SingleCamera.fl_sc (((q.x * q.x * t1 + q.y * q.y * t2) * t5 + q.z * q.z * t3) * t6 + q.w * q.w * t4)
  unfold Single.Quat.squaredNorm
  rw [e1, e2, e3, e4, e5, e6, e7]
  have a1 := (((h1.mul h5).mul h6).mul h7).apply (by norm_num) (q.x * q.x)
  have a2 := (((h2.mul h5).mul h6).mul h7).apply (by norm_num) (q.y * q.y)
  have a3 := ((h3.mul h6).mul h7).apply (by norm_num) (q.z * q.z)
  have a4 := (h4.mul h7).apply (by norm_num) (q.w * q.w)
  have e : (((q.x * q.x * t1 + q.y * q.y * t2) * t5 + q.z * q.z * t3) * t6 + q.w * q.w * t4) * t7 - 1 =
      (q.x * q.x * (t1 * t5 * t6 * t7) - q.x * q.x) + (q.y * q.y * (t2 * t5 * t6 * t7) - q.y * q.y) + (q.z * q.z * (t3 * t6 * t7) - q.z * q.z) +
      (q.w * q.w * (t4 * t7) - q.w * q.w) + (normSq q - 1) := by unfold normSq; ring
  rw [e]
  push_cast at a1 a2 a3 a4
  rw [abs_mul_self] at a1 a2 a3 a4
  have hn := (abs_le.mp h).2
  unfold normSq at hn
  rw [abs_le] at a1 a2 a3 a4 h ⊢
  have := mul_self_nonneg q.w
  have := mul_self_nonneg q.z
  have p1 := h.1
  have p2 := h.2
  generalize normSq q = n at p1 p2
  have sx : q.x ^ 2 = q.x * q.x := sq _
  have sy : q.y ^ 2 = q.y * q.y := sq _
  have sz : q.z ^ 2 = q.z * q.z := sq _
  have sw : q.w ^ 2 = q.w * q.w := sq _
  rw [sx, sy, sz, sw] at hn
  obtain ⟨a11, a12⟩ := a1
  obtain ⟨a21, a22⟩ := a2
  obtain ⟨a31, a32⟩ := a3
  obtain ⟨a41, a42⟩ := a4
  constructor <;> linarith

theorem quotient_err {c m η : ℚ} (hc : |c| ≤ 101 / 100) (hη0 : 0 ≤ η) (hη : η ≤ 1 / 1000) (hm : |m - 1| ≤ η + 11 / 2 ^ 24) : |fl (c / m) - c| ≤ 104 / 100 * η + 14 / 2 ^ 24 := by
  obtain ⟨t, ht, e⟩ := SingleCamera.fl_sc (c / m)
  have hm' := abs_le.mp hm
  have hm0 : 99 / 100 ≤ m := by linarith [hm'.1]
  have e2 : fl (c / m) - c = c * ((t - 1) - (m - 1)) / m := by
    rw [e]
    field_simp
    ring
  have ht1 := ht.err (by norm_num)
  push_cast at ht1
  have h1 : |(t - 1) - (m - 1)| ≤ η + 13 / 2 ^ 24 := (abs_sub _ _).trans (by linarith)
  rw [e2, abs_div, abs_mul, abs_of_pos (a := m) (by linarith), div_le_iff₀ (by linarith)]
  calc |c| * |(t - 1) - (m - 1)| ≤ 101 / 100 * (η + 13 / 2 ^ 24) := mul_le_mul hc h1 (abs_nonneg _) (by norm_num)
    _ ≤ (104 / 100 * η + 14 / 2 ^ 24) * (99 / 100) := by linarith
    _ ≤ (104 / 100 * η + 14 / 2 ^ 24) * m := mul_le_mul_of_nonneg_left hm0 (by positivity)

/-- Eigen's inverse is close to the conjugate. -/
theorem eigenInverse_err {q : Single.Quat} {η : ℚ} (hη : η ≤ 1 / 1000) (h : |normSq q - 1| ≤ η) :
    |q.eigenInverse.w - q.inverse.w| ≤ 104 / 100 * η + 14 / 2 ^ 24 ∧ |q.eigenInverse.x - q.inverse.x| ≤ 104 / 100 * η + 14 / 2 ^ 24 ∧
    |q.eigenInverse.y - q.inverse.y| ≤ 104 / 100 * η + 14 / 2 ^ 24 ∧ |q.eigenInverse.z - q.inverse.z| ≤ 104 / 100 * η + 14 / 2 ^ 24 := by
  obtain ⟨hw, hx, hy, hz⟩ := comp_le (by linarith) h
  have hη0 : 0 ≤ η := (abs_nonneg _).trans h
  have hs := squaredNorm_err (by linarith) h
  have hp : 0 < q.squaredNorm := by linarith [(abs_le.mp hs).1]
  unfold Single.Quat.eigenInverse
  rw [if_pos hp]
  exact ⟨quotient_err hw hη0 hη hs, quotient_err (by rwa [abs_neg]) hη0 hη hs, quotient_err (by rwa [abs_neg]) hη0 hη hs, quotient_err (by rwa [abs_neg]) hη0 hη hs⟩

theorem sq_near {a b ε : ℚ} (hb : |b| ≤ 101 / 100) (hε : ε ≤ 1 / 100) (h : |a - b| ≤ ε) : |a ^ 2 - b ^ 2| ≤ 204 / 100 * ε := by
  have e : a ^ 2 - b ^ 2 = (a - b) * (2 * b + (a - b)) := by ring
  have hε0 : 0 ≤ ε := (abs_nonneg _).trans h
  rw [e, abs_mul]
  have h1 : |2 * b + (a - b)| ≤ 204 / 100 := by
    refine (abs_add_le _ _).trans ?_
    rw [abs_mul, abs_two]
    linarith
  have := mul_le_mul h h1 (abs_nonneg _) hε0
  linarith

theorem normSq_eigenInverse {q : Single.Quat} {η : ℚ} (hη : η ≤ 1 / 2000) (h : |normSq q - 1| ≤ η) : |normSq q.eigenInverse - 1| ≤ 1 / 100 := by
  have hη0 : 0 ≤ η := (abs_nonneg _).trans h
  obtain ⟨hw, hx, hy, hz⟩ := comp_le (by linarith) (show |normSq q.inverse - 1| ≤ η by rwa [normSq_inverse])
  obtain ⟨ew, ex, ey, ez⟩ := eigenInverse_err (by linarith) h
  have a1 := abs_le.mp (sq_near hw (by linarith) ew)
  have a2 := abs_le.mp (sq_near hx (by linarith) ex)
  have a3 := abs_le.mp (sq_near hy (by linarith) ey)
  have a4 := abs_le.mp (sq_near hz (by linarith) ez)
  have hn := h
  rw [← normSq_inverse] at hn
  unfold normSq at hn ⊢
  rw [abs_le] at hn ⊢
  constructor <;> linarith [a1.1, a1.2, a2.1, a2.2, a3.1, a3.2, a4.1, a4.2, hn.1, hn.2]

theorem transform_err {T : Single.Pose} {η M N : ℚ} (hη : η ≤ 1 / 100) (h : |normSq T.q - 1| ≤ η) {p : Point 3} (hp : ∀ k, |p k| ≤ M) (ht : ∀ k, |T.t k| ≤ N) (k : Fin 3) :
    |T.transform p k - (exactRotate T.q p k + T.t k)| ≤ (69 * M + 2 * N) / 2 ^ 24 := by
  have h1 := rotate_err hη h hp k
  have h2 := exact_le hη h hp k
  have hM : 0 ≤ M := (abs_nonneg _).trans (hp 0)
  have hN : 0 ≤ N := (abs_nonneg _).trans (ht 0)
  have h3 : |exactRotate T.q p k + T.t k| ≤ 2 * M + N := (abs_add_le _ _).trans (by linarith [ht k])
  refine (fl_near (e := 66 * M / 2 ^ 24) ?_ h3).trans (by linarith)
  rw [add_sub_add_right_eq_sub]
  exact h1

theorem inverseRotate_err {q : Single.Quat} {η N : ℚ} (hη : η ≤ 1 / 2000) (h : |normSq q - 1| ≤ η) {v : Point 3} (hv : ∀ k, |v k| ≤ N) (k : Fin 3) :
    |q.inverseRotate v k - exactRotate q.inverse v k| ≤ 430 * N / 2 ^ 24 + 28 * η * N := by
  have hη0 : 0 ≤ η := (abs_nonneg _).trans h
  have hN : 0 ≤ N := (abs_nonneg _).trans (hv 0)
  have h1 := rotate_err (le_refl (1 / 100)) (normSq_eigenInverse hη h) hv k
  have h2 := exact_lipschitz (comp_le (by linarith) (show |normSq q.inverse - 1| ≤ η by rwa [normSq_inverse])) (by linarith) (eigenInverse_err (by linarith) h) hv k
  have h3 := abs_add_le (q.eigenInverse.rotate v k - exactRotate q.eigenInverse v k) (exactRotate q.eigenInverse v k - exactRotate q.inverse v k)
  rw [sub_add_sub_cancel] at h3
  refine h3.trans ?_
  nlinarith [mul_nonneg hη0 hN]

end SinglePoses

open Single SinglePoses

/-- The pose of `Verif.Model.Poses` with the same numbers. -/
def Single.Pose.toReal (T : Single.Pose) : Wavemap.Pose := ⟨⟨T.q.w, T.q.x, T.q.y, T.q.z⟩, fun k => (T.t k : ℝ)⟩

theorem SinglePoses.exact_toReal (T : Single.Pose) (p : Point 3) (k : Fin 3) :
    T.toReal.transform (fun k => (p k : ℝ)) k = ((exactRotate T.q p k + T.t k : ℚ) : ℝ) := by
  unfold Wavemap.Pose.transform Wavemap.Quat.rotate Wavemap.Quat.transformVector Single.Pose.toReal
  fin_cases k
  · simp only [exactRotate, Wavemap.Quat.imaginary, Wavemap.cross, Fin.zero_eta, Matrix.cons_val]
    push_cast
    ring
  · simp only [exactRotate, Wavemap.Quat.imaginary, Wavemap.cross, Fin.mk_one, Matrix.cons_val]
    push_cast
    ring
  · simp only [exactRotate, Wavemap.Quat.imaginary, Wavemap.cross, Fin.reduceFinMk, Matrix.cons_val]
    push_cast
    ring

/-- Applying a pose to a point gives the exact result up to a rounding error, in each coordinate. `M` bounds the coordinates of the point, `N` those of the position. The
condition on the quaternion is weaker than what the constructors check. -/
theorem C91_transform (T : Single.Pose) (h : |normSq T.q - 1| ≤ 1 / 100) (p : Point 3) (M N : ℚ) (hp : ∀ k, |p k| ≤ M) (ht : ∀ k, |T.t k| ≤ N) (k : Fin 3) :
    |((T.transform p k : ℚ) : ℝ) - T.toReal.transform (fun k => (p k : ℝ)) k| ≤ (((69 * M + 2 * N) / 2 ^ 24 : ℚ) : ℝ) := by
  have := transform_err (le_refl _) h hp ht k
  rw [exact_toReal, ← Rat.cast_sub, ← Rat.cast_abs]
  exact_mod_cast this

/-- Applying a pose and then its inverse gives the point back, up to a rounding error and the error of the quaternion's norm. -/
theorem C91_inverse (T : Single.Pose) (η : ℚ) (hη : η ≤ 1 / 2000) (h : |normSq T.q - 1| ≤ η) (p : Point 3) (M N : ℚ) (hp : ∀ k, |p k| ≤ M) (ht : ∀ k, |T.t k| ≤ N) (k : Fin 3) :
    |T.inverse.transform (T.transform p) k - p k| ≤ (M + N) * (1 / 2 ^ 15 + 28 * η) := by
  have hη0 : 0 ≤ η := (abs_nonneg _).trans h
  have hM : 0 ≤ M := (abs_nonneg _).trans (hp 0)
  have hN : 0 ≤ N := (abs_nonneg _).trans (ht 0)
  have hη1 : η ≤ 1 / 100 := by linarith
  have hi : |normSq T.q.inverse - 1| ≤ η := by rwa [normSq_inverse]
  have h1 := transform_err hη1 h hp ht
  have hX : ∀ k, |T.transform p k| ≤ 201 / 100 * M + 101 / 100 * N := by
    intro k
    have h2 := abs_add_le (T.transform p k - (exactRotate T.q p k + T.t k)) (exactRotate T.q p k + T.t k)
    rw [sub_add_cancel] at h2
    have h3 := abs_add_le (exactRotate T.q p k) (T.t k)
    linarith [h1 k, exact_le hη1 h hp k, ht k]
  have h2 := rotate_err hη1 hi hX k
  have h3 := inverseRotate_err hη h ht k
  -- the rotation back of the rounded point
  have hE : ∀ k, |T.transform p k - (exactRotate T.q p k + T.t k)| ≤ (69 * M + 2 * N) / 2 ^ 24 := h1
  have h4 := exact_le hη1 hi hE k
  have e1 : exactRotate T.q.inverse (T.transform p) k = exactRotate T.q.inverse (fun k => T.transform p k - (exactRotate T.q p k + T.t k)) k +
      (exactRotate T.q.inverse (exactRotate T.q p) k + exactRotate T.q.inverse T.t k) := by
    rw [← exact_add, ← exact_add]
    congr 1
    funext k
    ring
  have h5 := exact_inverse hη1 h hp k
  generalize exactRotate T.q.inverse (fun k => T.transform p k - (exactRotate T.q p k + T.t k)) k = A at *
  generalize exactRotate T.q.inverse (exactRotate T.q p) k = B at *
  generalize exactRotate T.q.inverse T.t k = C at *
  rw [e1] at h2
  show |fl (T.q.inverse.rotate (T.transform p) k + -T.q.inverseRotate T.t k) - p k| ≤ _
  generalize T.q.inverse.rotate (T.transform p) k = X at *
  generalize T.q.inverseRotate T.t k = Y at *
  have hs : |X + -Y - p k| ≤ 273 * M / 2 ^ 24 + 502 * N / 2 ^ 24 + 28 * η * (M + N) := by
    have e : X + -Y - p k = (X - (A + (B + C))) + A + (B - p k) - (Y - C) := by ring
    rw [e]
    refine (abs_sub _ _).trans ?_
    have g1 := abs_add_le (X - (A + (B + C)) + A) (B - p k)
    have g2 := abs_add_le (X - (A + (B + C))) A
    nlinarith [mul_nonneg hη0 hM, mul_nonneg hη0 hN]
  refine (fl_near hs (hp k)).trans ?_
  nlinarith [mul_nonneg hη0 hM, mul_nonneg hη0 hN]

/-- Both ways of applying the inverse agree, up to a rounding error and the error of the quaternion's norm. -/
theorem C91_inverse_transform (T : Single.Pose) (η : ℚ) (hη : η ≤ 1 / 2000) (h : |normSq T.q - 1| ≤ η) (p : Point 3) (M N : ℚ) (hp : ∀ k, |p k| ≤ M) (ht : ∀ k, |T.t k| ≤ N)
    (k : Fin 3) : |T.inverseTransform p k - T.inverse.transform p k| ≤ (M + N) * (1 / 2 ^ 14 + 57 * η) := by
  have hη0 : 0 ≤ η := (abs_nonneg _).trans h
  have hM : 0 ≤ M := (abs_nonneg _).trans (hp 0)
  have hN : 0 ≤ N := (abs_nonneg _).trans (ht 0)
  have hη1 : η ≤ 1 / 100 := by linarith
  have hi : |normSq T.q.inverse - 1| ≤ η := by rwa [normSq_inverse]
  have hd : ∀ k, |fl (p k - T.t k) - (p k - T.t k)| ≤ (M + N) / 2 ^ 24 := by
    intro k
    have := abs_sub (p k) (T.t k)
    refine (fl_err _).trans (div_le_div_of_nonneg_right ?_ (by norm_num))
    linarith [hp k, ht k]
  have hb : ∀ k, |fl (p k - T.t k)| ≤ 101 / 100 * (M + N) := by
    intro k
    have h2 := abs_add_le (fl (p k - T.t k) - (p k - T.t k)) (p k - T.t k)
    rw [sub_add_cancel] at h2
    have := abs_sub (p k) (T.t k)
    linarith [hd k, hp k, ht k]
  have h1 := inverseRotate_err hη h hb k
  have h2 := exact_le hη1 hi hd k
  have e1 : exactRotate T.q.inverse (fun k => fl (p k - T.t k)) k = exactRotate T.q.inverse (fun k => fl (p k - T.t k) - (p k - T.t k)) k +
      (exactRotate T.q.inverse p k + -exactRotate T.q.inverse T.t k) := by
    rw [← exact_neg, ← exact_add, ← exact_add]
    congr 1
    funext k
    ring
  have h3 := rotate_err hη1 hi hp k
  have h4 := inverseRotate_err hη h ht k
  have h5 := exact_le hη1 hi hp k
  have h6 := exact_le hη1 hi ht k
  show |T.q.inverseRotate (fun k => fl (p k - T.t k)) k - fl (T.q.inverse.rotate p k + -T.q.inverseRotate T.t k)| ≤ _
  rw [e1] at h1
  generalize exactRotate T.q.inverse (fun k => fl (p k - T.t k) - (p k - T.t k)) k = A at *
  generalize exactRotate T.q.inverse p k = B at *
  generalize exactRotate T.q.inverse T.t k = C at *
  generalize T.q.inverseRotate (fun k => fl (p k - T.t k)) k = X at *
  generalize T.q.inverse.rotate p k = Y at *
  generalize T.q.inverseRotate T.t k = Z at *
  have hs : |Y + -Z - (B + -C)| ≤ 66 * M / 2 ^ 24 + (430 * N / 2 ^ 24 + 28 * η * N) := by
    have e : Y + -Z - (B + -C) = (Y - B) - (Z - C) := by ring
    rw [e]
    exact (abs_sub _ _).trans (by linarith)
  have hBC : |B + -C| ≤ 2 * M + 2 * N := (abs_add_le _ _).trans (by rw [abs_neg]; linarith)
  have hf := fl_near hs hBC
  generalize fl (Y + -Z) = F at *
  have e : X - F = (X - (A + (B + -C))) + A - (F - (B + -C)) := by ring
  rw [e]
  refine (abs_sub _ _).trans ?_
  have g1 := abs_add_le (X - (A + (B + -C))) A
  nlinarith [mul_nonneg hη0 hM, mul_nonneg hη0 hN]

/-- A robot's pose: turned to the left by the angle whose cosine is 7/25 and 100 m from the origin, looking at a point 20 m ahead. -/
example : |normSq ⟨4 / 5, 0, 0, 3 / 5⟩ - 1| ≤ (0 : ℚ) ∧ (∀ k, |(![20, 1, -1] : Point 3) k| ≤ 20) ∧ (∀ k, |(![100, 50, 0] : Point 3) k| ≤ 100) := by
  decide +kernel

end Wavemap
