import Mathlib.Data.Fin.VecNotation
import Mathlib.Tactic.FinCases
import Mathlib.Tactic.FieldSimp
import Mathlib.Algebra.Order.Ring.Abs
import Verif.Lemmas.Ray
import Verif.Props.Points
/-!
# C30: ray iteration

`StepTowards stop a b` (Lemmas/Ray.lean) says that `b` differs from `a` by one along one axis, and is closer to `stop`.
-/
namespace Wavemap
variable {d : Nat}

/-! ## Rays between cell centres -/

theorem ofIndices_walk (a b : Index d) :
    Walk (Ray.ofIndices a b) (fun i => (b i - a i).natAbs) (fun t => t < 1) where
  stop i := by
    show b i = a i + (b i - a i).sign * ((b i - a i).natAbs : Int)
    rw [Int.sign_mul_natAbs]; ring
  len := rfl
  down s t h1 h2 := lt_of_le_of_lt h1 h2
  le_one t h := le_of_lt h
  good i c := by
    show c < (b i - a i).natAbs ↔ (if b i - a i = 0 then (2 : ℚ) else _) + c * (if b i - a i = 0 then (2 : ℚ) else _) < 1
    generalize b i - a i = D
    rcases lt_trichotomy D 0 with h | h | h
    · rw [if_neg (by omega), if_neg (by omega), Int.sign_eq_neg_one_of_neg h]
      have hD : (D : ℚ) < 0 := by exact_mod_cast h
      obtain ⟨n, hn, rfl⟩ : ∃ n : Nat, 0 < n ∧ D = -(n : Int) := ⟨D.natAbs, by omega, by omega⟩
      have hn' : (0 : ℚ) < n := by exact_mod_cast hn
      have e : (((max (-1) 0 : Int) : ℚ) - 1 / 2) / ((-(n : Int) : Int) : ℚ) + c * (((-1 : Int) : ℚ) / ((-(n : Int) : Int) : ℚ))
          = (c + 1 / 2) / n := by
        have : (max (-1) 0 : Int) = 0 := by decide
        rw [this]; push_cast; field_simp; ring
      rw [e, div_lt_one hn']
      simp only [Int.natAbs_neg, Int.natAbs_natCast]
      constructor
      · intro h; have : (c : ℚ) + 1 ≤ n := by exact_mod_cast h
        linarith
      · intro h; by_contra hc
        have : (n : ℚ) ≤ c := by exact_mod_cast not_lt.1 hc
        linarith
    · subst h
      simp only [if_true, Int.natAbs_zero]
      constructor
      · intro h; omega
      · intro h; have : (0 : ℚ) ≤ c := by positivity
        linarith
    · rw [if_neg (by omega), if_neg (by omega), Int.sign_eq_one_of_pos h]
      obtain ⟨n, hn, rfl⟩ : ∃ n : Nat, 0 < n ∧ D = (n : Int) := ⟨D.natAbs, by omega, by omega⟩
      have hn' : (0 : ℚ) < n := by exact_mod_cast hn
      have e : (((max 1 0 : Int) : ℚ) - 1 / 2) / (((n : Int) : Int) : ℚ) + c * (((1 : Int) : ℚ) / (((n : Int) : Int) : ℚ))
          = (c + 1 / 2) / n := by
        have : (max 1 0 : Int) = 1 := by decide
        rw [this]; push_cast; field_simp; ring
      rw [e, div_lt_one hn']
      simp only [Int.natAbs_natCast]
      constructor
      · intro h; have : (c : ℚ) + 1 ≤ n := by exact_mod_cast h
        linarith
      · intro h; by_contra hc
        have : (n : ℚ) ≤ c := by exact_mod_cast not_lt.1 hc
        linarith
  init_nonneg i := by
    show (0 : ℚ) ≤ if b i - a i = 0 then (2 : ℚ) else _
    generalize b i - a i = D
    rcases lt_trichotomy D 0 with h | h | h
    · rw [if_neg (by omega), Int.sign_eq_neg_one_of_neg h]
      have hD : (D : ℚ) < 0 := by exact_mod_cast h
      refine div_nonneg_of_nonpos ?_ hD.le
      have : (max (-1) 0 : Int) = 0 := by decide
      rw [this]; norm_num
    · rw [if_pos h]; norm_num
    · rw [if_neg (by omega), Int.sign_eq_one_of_pos h]
      have hD : (0 : ℚ) < D := by exact_mod_cast h
      refine div_nonneg ?_ hD.le
      have : (max 1 0 : Int) = 1 := by decide
      rw [this]; norm_num
  step_nonneg i := by
    show (0 : ℚ) ≤ if b i - a i = 0 then (2 : ℚ) else _
    generalize b i - a i = D
    rcases lt_trichotomy D 0 with h | h | h
    · rw [if_neg (by omega), Int.sign_eq_neg_one_of_neg h]
      have hD : (D : ℚ) < 0 := by exact_mod_cast h
      exact div_nonneg_of_nonpos (by norm_num) hD.le
    · rw [if_pos h]; norm_num
    · rw [if_neg (by omega), Int.sign_eq_one_of_pos h]
      have hD : (0 : ℚ) < D := by exact_mod_cast h
      exact div_nonneg (by norm_num) hD.le
  sign i h := by
    show (b i - a i).sign = 1 ∨ (b i - a i).sign = -1
    have h' : 0 < (b i - a i).natAbs := h
    rcases lt_trichotomy (b i - a i) 0 with h | h | h
    · exact Or.inr (Int.sign_eq_neg_one_of_neg h)
    · omega
    · exact Or.inl (Int.sign_eq_one_of_pos h)

/-- **C30** The cells visited along the ray between two cell indices start at the first and end at the second, each step
moves by one along one axis and closer to the end, no cell is visited twice, and each visited cell touches the line
segment between the two cell centres. This holds whichever axis is chosen when boundary crossings coincide. -/
theorem C30_index_ray (a b : Index d) (cells : List (Index d)) (h : RayCells (Ray.ofIndices a b) cells) :
    cells.head? = some a ∧ cells.getLast? = some b ∧ cells.IsChain (StepTowards b) ∧ cells.Nodup ∧
    ∀ cell ∈ cells, ∃ t : ℚ, 0 ≤ t ∧ t ≤ 1 ∧ ∀ i, |(a i : ℚ) + t * (b i - a i) - cell i| ≤ 1 / 2 := by
  obtain ⟨hl, hv⟩ := h
  have w := ofIndices_walk a b
  have hlen : cells.length = ∑ i, (b i - a i).natAbs + 1 := hl
  obtain ⟨h1, h2, h3⟩ := walk_visit w _ cells hv (fun _ => 0) 0 (WInv.init w)
    (by intro i; show (Ray.ofIndices a b).tInit i = _; simp) (by simp [hlen])
  have hne : cells ≠ [] := by rintro rfl; simp at hlen
  obtain ⟨h4, h5⟩ := h1 hne
  refine ⟨h4, h5, h2, chain_nodup _ _ h2, fun cell hc => ?_⟩
  obtain ⟨c, T, hi⟩ := h3 cell hc
  refine ⟨T, hi.T0, hi.T1, fun i => ?_⟩
  have hcur : cell i = a i + (b i - a i).sign * c i := hi.cur i
  have hnext : T ≤ (if b i - a i = 0 then (2 : ℚ) else _) + c i * (if b i - a i = 0 then (2 : ℚ) else _) := hi.next i
  have hprev : 0 < c i → (if b i - a i = 0 then (2 : ℚ) else _) +
    ((c i : ℚ) - 1) * (if b i - a i = 0 then (2 : ℚ) else _) ≤ T := hi.prev i
  have hle : c i ≤ (b i - a i).natAbs := hi.le i
  have hsub : ((b i : ℚ) - a i) = ((b i - a i : Int) : ℚ) := by push_cast; ring
  rw [hcur, hsub]
  generalize hD : b i - a i = D at *
  generalize c i = k at *
  have hT0 := hi.T0
  rcases lt_trichotomy D 0 with h | h | h
  · rw [if_neg (by omega), if_neg (by omega), Int.sign_eq_neg_one_of_neg h] at hnext hprev
    rw [Int.sign_eq_neg_one_of_neg h]
    obtain ⟨n, hn, rfl⟩ : ∃ n : Nat, 0 < n ∧ D = -(n : Int) := ⟨D.natAbs, by omega, by omega⟩
    have hn' : (0 : ℚ) < n := by exact_mod_cast hn
    have em : (max (-1) 0 : Int) = 0 := by decide
    rw [em] at hnext hprev
    have e : ∀ x : ℚ, (((0 : Int) : ℚ) - 1 / 2) / ((-(n : Int) : Int) : ℚ) + x * (((-1 : Int) : ℚ) / ((-(n : Int) : Int) : ℚ))
        = (x + 1 / 2) / n := by intro x; push_cast; field_simp; ring
    rw [e] at hnext hprev
    rw [le_div_iff₀ hn'] at hnext
    rw [div_le_iff₀ hn'] at hprev
    rw [abs_le]
    push_cast
    constructor
    · linarith
    · rcases Nat.eq_zero_or_pos k with rfl | hk
      · have : 0 ≤ T * n := by positivity
        push_cast; linarith
      · have := hprev hk; linarith
  · subst h
    have hk : k = 0 := by simpa using hle
    subst hk; simp
  · rw [if_neg (by omega), if_neg (by omega), Int.sign_eq_one_of_pos h] at hnext hprev
    rw [Int.sign_eq_one_of_pos h]
    obtain ⟨n, hn, rfl⟩ : ∃ n : Nat, 0 < n ∧ D = (n : Int) := ⟨D.natAbs, by omega, by omega⟩
    have hn' : (0 : ℚ) < n := by exact_mod_cast hn
    have em : (max 1 0 : Int) = 1 := by decide
    rw [em] at hnext hprev
    have e : ∀ x : ℚ, (((1 : Int) : ℚ) - 1 / 2) / (((n : Int) : Int) : ℚ) + x * (((1 : Int) : ℚ) / (((n : Int) : Int) : ℚ))
        = (x + 1 / 2) / n := by intro x; push_cast; field_simp; ring
    rw [e] at hnext hprev
    rw [le_div_iff₀ hn'] at hnext
    rw [div_le_iff₀ hn'] at hprev
    rw [abs_le]
    push_cast
    constructor
    · rcases Nat.eq_zero_or_pos k with rfl | hk
      · have : 0 ≤ T * n := by positivity
        push_cast; linarith
      · have := hprev hk; linarith
    · linarith

/-- Every ray can be iterated over (so `C30_index_ray` and `C30_point_ray_partial` are not vacuous). -/
theorem C30_ray_iterable (hd : 0 < d) (r : Ray d) (hr : 0 < r.lengthInSteps) : ∃ cells, RayCells r cells := by
  obtain ⟨l, h1, h2⟩ := exists_visit hd r (r.lengthInSteps - 1) (rayBegin r)
  exact ⟨l, by omega, h2⟩

/-! ## Rays between arbitrary points -/

/-- The end point lies, along moving axis `i`, on the first face of its cell that the ray meets. -/
def EndsOnNearFace (p q : Point d) (w : ℚ) (i : Fin d) : Prop :=
  (p i < q i ∧ q i = (pointToNearestIndex q (1 / w) i : ℚ) * w) ∨
  (q i < p i ∧ q i = ((pointToNearestIndex q (1 / w) i : ℚ) + 1) * w)

/-- The end point lies, along moving axis `i`, on the last face of its cell. -/
def EndsOnFarFace (p q : Point d) (w : ℚ) (i : Fin d) : Prop :=
  (p i < q i ∧ q i = ((pointToNearestIndex q (1 / w) i : ℚ) + 1) * w) ∨
  (q i < p i ∧ q i = (pointToNearestIndex q (1 / w) i : ℚ) * w)

theorem nearest_mono (p q : Point d) (w : ℚ) (hw : 0 < w) (i : Fin d) (h : p i ≤ q i) :
    pointToNearestIndex p (1 / w) i ≤ pointToNearestIndex q (1 / w) i := by
  unfold pointToNearestIndex scaledPointToNearestIndex
  dsimp only
  have hs : p i * (1 / w) ≤ q i * (1 / w) := mul_le_mul_of_nonneg_right h (by positivity)
  generalize p i * (1 / w) = x at *
  generalize q i * (1 / w) = y at *
  have hx := (nearest_iff x _).1 rfl
  have hy := (nearest_iff y _).1 rfl
  generalize cppRound (x - 1 / 2) = k at *
  generalize cppRound (y - 1 / 2) = m at *
  by_contra hlt
  have : (m : ℚ) + 1 ≤ k := by exact_mod_cast (by omega : m + 1 ≤ k)
  rcases hx with ⟨a1, a2, a3⟩ | ⟨a1, a2, a3⟩ <;> rcases hy with ⟨b1, b2, b3⟩ | ⟨b1, b2, b3⟩ <;> linarith

theorem nearest_bounds (p : Point d) (w : ℚ) (hw : 0 < w) (i : Fin d) :
    (pointToNearestIndex p (1 / w) i : ℚ) * w ≤ p i ∧ p i ≤ ((pointToNearestIndex p (1 / w) i : ℚ) + 1) * w := by
  unfold pointToNearestIndex scaledPointToNearestIndex
  have hx := (nearest_iff (p i * (1 / w)) _).1 rfl
  generalize cppRound _ = k at *
  rw [← scale_le _ _ _ hw, ← scale_ge _ _ _ hw]
  rcases hx with ⟨a1, a2, a3⟩ | ⟨a1, a2, a3⟩ <;> constructor <;> linarith

/-- One axis: where the `c`-th boundary is crossed, in terms of the coordinates. -/
theorem ofPoints_cross (p q : Point d) (w : ℚ) (i : Fin d) (c : ℚ) :
    (p i < q i → (Ray.ofPoints p q w).tInit i + c * (Ray.ofPoints p q w).tStep i
      = (((pointToNearestIndex p (1 / w) i : ℚ) + c + 1) * w - p i) / (q i - p i)) ∧
    (q i < p i → (Ray.ofPoints p q w).tInit i + c * (Ray.ofPoints p q w).tStep i
      = (p i - ((pointToNearestIndex p (1 / w) i : ℚ) - c) * w) / (p i - q i)) ∧
    (q i = p i → (Ray.ofPoints p q w).tInit i + c * (Ray.ofPoints p q w).tStep i = 2 + c * 2) := by
  refine ⟨fun h => ?_, fun h => ?_, fun h => ?_⟩ <;> simp only [Ray.ofPoints, coordMinCorner, ratSign]
  · have h' : (0 : ℚ) < q i - p i := by linarith
    have em : (max 1 0 : Int) = 1 := by decide
    rw [if_neg h'.ne', if_neg h'.ne', if_pos h', em]
    field_simp; push_cast; ring
  · have h' : q i - p i < 0 := by linarith
    have h2 : p i - q i ≠ 0 := by intro h; linarith
    have em : (max (-1) 0 : Int) = 0 := by decide
    rw [if_neg h'.ne, if_neg h'.ne, if_neg (by linarith), if_pos h', em]
    have h3 := h'.ne
    have e : p i - q i = -(q i - p i) := by ring
    rw [e, div_neg]
    field_simp; push_cast; ring
  · have h' : q i - p i = 0 := by linarith
    rw [if_pos h', if_pos h']

theorem ofPoints_walk (p q : Point d) (w : ℚ) (hw : 0 < w) (Good : ℚ → Prop)
    (down : ∀ s t, s ≤ t → Good t → Good s) (lt1 : ∀ t, t < 1 → Good t) (le1 : ∀ t, Good t → t ≤ 1)
    (hnear : (∃ i, EndsOnNearFace p q w i) → Good 1) (hfar : (∃ i, EndsOnFarFace p q w i) → ¬ Good 1) :
    Walk (Ray.ofPoints p q w)
      (fun i => (pointToNearestIndex q (1 / w) i - pointToNearestIndex p (1 / w) i).natAbs) Good where
  len := rfl
  down := down
  le_one := le1
  stop i := by
    show pointToNearestIndex q (1 / w) i = pointToNearestIndex p (1 / w) i + ratSign (q i - p i) * _
    rcases lt_trichotomy (p i) (q i) with h | h | h
    · have := nearest_mono p q w hw i h.le
      unfold ratSign; rw [if_pos (by linarith)]
      omega
    · have e : pointToNearestIndex q (1 / w) i = pointToNearestIndex p (1 / w) i := by
        unfold pointToNearestIndex scaledPointToNearestIndex; dsimp only; rw [h]
      rw [e]; simp
    · have := nearest_mono q p w hw i h.le
      unfold ratSign; rw [if_neg (by linarith), if_pos (by linarith)]
      omega
  sign i hn := by
    show ratSign (q i - p i) = 1 ∨ ratSign (q i - p i) = -1
    unfold ratSign
    rcases lt_trichotomy (p i) (q i) with h | h | h
    · left; rw [if_pos (by linarith)]
    · have e : pointToNearestIndex q (1 / w) i = pointToNearestIndex p (1 / w) i := by
        unfold pointToNearestIndex scaledPointToNearestIndex; dsimp only; rw [h]
      simp only [e] at hn; simp at hn
    · right; rw [if_neg (by linarith), if_pos (by linarith)]
  init_nonneg i := by
    have := ofPoints_cross p q w i 0
    simp only [zero_mul, add_zero] at this
    obtain ⟨c1, c2, c3⟩ := this
    have hb := nearest_bounds p w hw i
    rcases lt_trichotomy (p i) (q i) with h | h | h
    · rw [c1 h]; exact div_nonneg (by linarith) (by linarith)
    · rw [c3 h.symm]; norm_num
    · rw [c2 h]; exact div_nonneg (by linarith) (by linarith)
  step_nonneg i := by
    show (0 : ℚ) ≤ if q i - p i = 0 then (2 : ℚ) else coordMinCorner (ratSign (q i - p i)) w / (q i - p i)
    unfold ratSign coordMinCorner
    rcases lt_trichotomy (p i) (q i) with h | h | h
    · rw [if_neg (by linarith), if_pos (by linarith)]
      exact div_nonneg (by push_cast; linarith) (by linarith)
    · rw [if_pos (by linarith)]; norm_num
    · rw [if_neg (by linarith), if_neg (by linarith), if_pos (by linarith)]
      exact div_nonneg_of_nonpos (by push_cast; linarith) (by linarith)
  good i c := by
    obtain ⟨c1, c2, c3⟩ := ofPoints_cross p q w i c
    have hp := nearest_bounds p w hw i
    have hq := nearest_bounds q w hw i
    have hnear' : EndsOnNearFace p q w i → Good 1 := fun h => hnear ⟨i, h⟩
    have hfar' : EndsOnFarFace p q w i → ¬ Good 1 := fun h => hfar ⟨i, h⟩
    unfold EndsOnNearFace at hnear'
    unfold EndsOnFarFace at hfar'
    rcases lt_trichotomy (p i) (q i) with h | h | h
    · rw [c1 h]
      have hm := nearest_mono p q w hw i h.le
      generalize pointToNearestIndex p (1 / w) i = a at *
      generalize pointToNearestIndex q (1 / w) i = b at *
      have hpos : (0 : ℚ) < q i - p i := by linarith
      constructor
      · intro hc
        have hc' : a + c + 1 ≤ b := by omega
        have hc2 : (a : ℚ) + c + 1 ≤ b := by exact_mod_cast hc'
        have hle : ((a : ℚ) + c + 1) * w ≤ b * w := mul_le_mul_of_nonneg_right hc2 hw.le
        rcases lt_or_eq_of_le (hle.trans hq.1) with hlt | heq
        · exact lt1 _ ((div_lt_one hpos).2 (by linarith))
        · have e : (((a : ℚ) + c + 1) * w - p i) / (q i - p i) = 1 := by rw [heq]; exact div_self hpos.ne'
          rw [e]; exact hnear' (Or.inl ⟨h, by linarith⟩)
      · intro hg
        by_contra hc
        have hc' : b ≤ a + c := by omega
        have hc2 : (b : ℚ) ≤ a + c := by exact_mod_cast hc'
        have hle : ((b : ℚ) + 1) * w ≤ ((a : ℚ) + c + 1) * w := mul_le_mul_of_nonneg_right (by linarith) hw.le
        have h1 := le1 _ hg
        rw [div_le_one hpos] at h1
        have e : q i = ((b : ℚ) + 1) * w := by linarith
        have e2 : (((a : ℚ) + c + 1) * w - p i) / (q i - p i) = 1 := by
          rw [div_eq_one_iff_eq hpos.ne']; linarith
        rw [e2] at hg
        exact hfar' (Or.inl ⟨h, e⟩) hg
    · rw [c3 h.symm]
      have e : pointToNearestIndex q (1 / w) i = pointToNearestIndex p (1 / w) i := by
        unfold pointToNearestIndex scaledPointToNearestIndex; dsimp only; rw [h]
      rw [e]
      constructor
      · intro hc; simp at hc
      · intro hg; have := le1 _ hg
        have : (0 : ℚ) ≤ c := by positivity
        linarith
    · rw [c2 h]
      have hm := nearest_mono q p w hw i h.le
      generalize pointToNearestIndex p (1 / w) i = a at *
      generalize pointToNearestIndex q (1 / w) i = b at *
      have hpos : (0 : ℚ) < p i - q i := by linarith
      constructor
      · intro hc
        have hc' : b + 1 ≤ a - c := by omega
        have hc2 : (b : ℚ) + 1 ≤ a - c := by exact_mod_cast hc'
        have hle : ((b : ℚ) + 1) * w ≤ ((a : ℚ) - c) * w := mul_le_mul_of_nonneg_right hc2 hw.le
        rcases lt_or_eq_of_le (hq.2.trans hle) with hlt | heq
        · exact lt1 _ ((div_lt_one hpos).2 (by linarith))
        · have e : (p i - ((a : ℚ) - c) * w) / (p i - q i) = 1 := by rw [← heq]; exact div_self hpos.ne'
          rw [e]; exact hnear' (Or.inr ⟨h, by linarith⟩)
      · intro hg
        by_contra hc
        have hc' : a - c ≤ b := by omega
        have hc2 : (a : ℚ) - c ≤ b := by exact_mod_cast hc'
        have hle : ((a : ℚ) - c) * w ≤ (b : ℚ) * w := mul_le_mul_of_nonneg_right hc2 hw.le
        have h1 := le1 _ hg
        rw [div_le_one hpos] at h1
        have e : q i = (b : ℚ) * w := by linarith
        have e2 : (p i - ((a : ℚ) - c) * w) / (p i - q i) = 1 := by
          rw [div_eq_one_iff_eq hpos.ne']; linarith
        rw [e2] at hg
        exact hfar' (Or.inr ⟨h, e⟩) hg

/-- **C30** The cells visited along the ray between two points start at the cell of the first point and end at the cell
of the second, each step moves by one along one axis and closer to the end, no cell is visited twice, and each visited
cell is touched by the ray; whichever axis is chosen on ties. Partial: rays whose end point lies on the near face of its
cell along one axis and on the far face along another are excluded, see `C30_point_ray_fails`. -/
theorem C30_point_ray_partial (p q : Point d) (w : ℚ) (hw : 0 < w)
    (hend : ¬ ((∃ i, EndsOnNearFace p q w i) ∧ ∃ j, EndsOnFarFace p q w j))
    (cells : List (Index d)) (h : RayCells (Ray.ofPoints p q w) cells) :
    cells.head? = some (pointToNearestIndex p (1 / w)) ∧ cells.getLast? = some (pointToNearestIndex q (1 / w)) ∧
    cells.IsChain (StepTowards (pointToNearestIndex q (1 / w))) ∧ cells.Nodup ∧
    ∀ cell ∈ cells, ∃ t : ℚ, 0 ≤ t ∧ t ≤ 1 ∧
      ∀ i, (cell i : ℚ) * w ≤ p i + t * (q i - p i) ∧ p i + t * (q i - p i) ≤ ((cell i : ℚ) + 1) * w := by
  obtain ⟨Good, wk⟩ : ∃ Good, Walk (Ray.ofPoints p q w)
      (fun i => (pointToNearestIndex q (1 / w) i - pointToNearestIndex p (1 / w) i).natAbs) Good := by
    by_cases hn : ∃ i, EndsOnNearFace p q w i
    · exact ⟨fun t => t ≤ 1, ofPoints_walk p q w hw _ (fun s t h1 h2 => h1.trans h2) (fun t h => h.le) (fun t h => h)
        (fun _ => le_refl _) (fun hf => absurd ⟨hn, hf⟩ hend)⟩
    · exact ⟨fun t => t < 1, ofPoints_walk p q w hw _ (fun s t h1 h2 => lt_of_le_of_lt h1 h2) (fun t h => h)
        (fun t h => h.le) (fun h => absurd h hn) (fun _ => lt_irrefl _)⟩
  obtain ⟨hl, hv⟩ := h
  have hlen : cells.length = ∑ i, (pointToNearestIndex q (1 / w) i - pointToNearestIndex p (1 / w) i).natAbs + 1 := hl
  obtain ⟨h1, h2, h3⟩ := walk_visit wk _ cells hv (fun _ => 0) 0 (WInv.init wk)
    (by intro i; show (Ray.ofPoints p q w).tInit i = _; simp) (by simp [hlen])
  have hne : cells ≠ [] := by rintro rfl; simp at hlen
  obtain ⟨h4, h5⟩ := h1 hne
  refine ⟨h4, h5, h2, chain_nodup _ _ h2, fun cell hc => ?_⟩
  obtain ⟨c, T, hi⟩ := h3 cell hc
  refine ⟨T, hi.T0, hi.T1, fun i => ?_⟩
  have hcur : cell i = pointToNearestIndex p (1 / w) i + ratSign (q i - p i) * c i := hi.cur i
  have hnext := hi.next i
  have hprev := hi.prev i
  have hb := nearest_bounds p w hw i
  have hT0 := hi.T0
  obtain ⟨c1, c2, c3⟩ := ofPoints_cross p q w i (c i)
  obtain ⟨d1, d2, d3⟩ := ofPoints_cross p q w i ((c i : ℚ) - 1)
  rw [hcur]
  unfold ratSign
  rcases lt_trichotomy (p i) (q i) with h | h | h
  · rw [if_pos (by linarith)]
    rw [c1 h] at hnext
    rw [d1 h] at hprev
    have hpos : (0 : ℚ) < q i - p i := by linarith
    rw [le_div_iff₀ hpos] at hnext
    rw [div_le_iff₀ hpos] at hprev
    push_cast
    constructor
    · rcases Nat.eq_zero_or_pos (c i) with hz | hk
      · rw [hz]; have : 0 ≤ T * (q i - p i) := by positivity
        push_cast; linarith
      · have := hprev hk; linarith
    · linarith
  · have hz : c i = 0 := by
      have := hi.le i
      have e : pointToNearestIndex q (1 / w) i = pointToNearestIndex p (1 / w) i := by
        unfold pointToNearestIndex scaledPointToNearestIndex; dsimp only; rw [h]
      simp only [e] at this; simpa using this
    rw [hz, h]
    rw [h] at hb
    have : q i + T * (q i - q i) = q i := by ring
    rw [this]; simpa using hb
  · rw [if_neg (by linarith), if_pos (by linarith)]
    rw [c2 h] at hnext
    rw [d2 h] at hprev
    have hpos : (0 : ℚ) < p i - q i := by linarith
    rw [le_div_iff₀ hpos] at hnext
    rw [div_le_iff₀ hpos] at hprev
    push_cast
    constructor
    · linarith
    · rcases Nat.eq_zero_or_pos (c i) with hz | hk
      · rw [hz]; have : 0 ≤ T * (p i - q i) := by positivity
        push_cast; linarith
      · have := hprev hk; linarith

open Classical in
/-- The number of cell boundaries along axis `i` that the ray meets up to and including its end. -/
noncomputable def closedCrossings (p q : Point d) (w : ℚ) (i : Fin d) : Nat :=
  (pointToNearestIndex q (1 / w) i - pointToNearestIndex p (1 / w) i).natAbs + if EndsOnFarFace p q w i then 1 else 0

theorem crossing_lt_one (p q : Point d) (w : ℚ) (hw : 0 < w) (i : Fin d) (c : Nat)
    (h1 : (Ray.ofPoints p q w).tInit i + c * (Ray.ofPoints p q w).tStep i < 1) :
    c < (pointToNearestIndex q (1 / w) i - pointToNearestIndex p (1 / w) i).natAbs := by
  obtain ⟨c1, c2, c3⟩ := ofPoints_cross p q w i c
  have hq := nearest_bounds q w hw i
  by_contra hc
  rcases lt_trichotomy (p i) (q i) with h | h | h
  · rw [c1 h] at h1
    have hm := nearest_mono p q w hw i h.le
    generalize pointToNearestIndex p (1 / w) i = a at *
    generalize pointToNearestIndex q (1 / w) i = b at *
    have hpos : (0 : ℚ) < q i - p i := by linarith
    have hc' : b ≤ a + c := by omega
    have hc2 : (b : ℚ) ≤ a + c := by exact_mod_cast hc'
    have hle : ((b : ℚ) + 1) * w ≤ ((a : ℚ) + c + 1) * w := mul_le_mul_of_nonneg_right (by linarith) hw.le
    rw [div_lt_one hpos] at h1
    linarith
  · rw [c3 h.symm] at h1
    have : (0 : ℚ) ≤ c := by positivity
    linarith
  · rw [c2 h] at h1
    have hm := nearest_mono q p w hw i h.le
    generalize pointToNearestIndex p (1 / w) i = a at *
    generalize pointToNearestIndex q (1 / w) i = b at *
    have hpos : (0 : ℚ) < p i - q i := by linarith
    have hc' : a - c ≤ b := by omega
    have hc2 : (a : ℚ) - c ≤ b := by exact_mod_cast hc'
    have hle : ((a : ℚ) - c) * w ≤ (b : ℚ) * w := mul_le_mul_of_nonneg_right hc2 hw.le
    rw [div_lt_one hpos] at h1
    linarith

theorem crossing_le_one (p q : Point d) (w : ℚ) (hw : 0 < w) (i : Fin d) (c : Nat) :
    c < closedCrossings p q w i ↔ (Ray.ofPoints p q w).tInit i + c * (Ray.ofPoints p q w).tStep i ≤ 1 := by
  obtain ⟨c1, c2, c3⟩ := ofPoints_cross p q w i c
  have hp := nearest_bounds p w hw i
  have hq := nearest_bounds q w hw i
  unfold closedCrossings
  rcases lt_trichotomy (p i) (q i) with h | h | h
  · rw [c1 h]
    have hm := nearest_mono p q w hw i h.le
    have hF : EndsOnFarFace p q w i ↔ q i = ((pointToNearestIndex q (1 / w) i : ℚ) + 1) * w := by
      unfold EndsOnFarFace
      exact ⟨fun h' => h'.elim And.right (fun h' => absurd h'.1 (not_lt.2 h.le)), fun h' => Or.inl ⟨h, h'⟩⟩
    simp only [hF]
    generalize pointToNearestIndex p (1 / w) i = a at *
    generalize pointToNearestIndex q (1 / w) i = b at *
    have hpos : (0 : ℚ) < q i - p i := by linarith
    rw [div_le_one hpos]
    constructor
    · intro hc
      split at hc
      · next e =>
        have hc' : a + c ≤ b := by omega
        have hc2 : (a : ℚ) + c ≤ b := by exact_mod_cast hc'
        have hle : ((a : ℚ) + c + 1) * w ≤ (b + 1) * w := mul_le_mul_of_nonneg_right (by linarith) hw.le
        linarith
      · have hc' : a + c + 1 ≤ b := by omega
        have hc2 : (a : ℚ) + c + 1 ≤ b := by exact_mod_cast hc'
        have hle : ((a : ℚ) + c + 1) * w ≤ b * w := mul_le_mul_of_nonneg_right hc2 hw.le
        linarith
    · intro hg
      have hle : (a : ℚ) + c + 1 ≤ b + 1 := le_of_mul_le_mul_right (by linarith) hw
      have hle' : a + c + 1 ≤ b + 1 := by exact_mod_cast hle
      split
      · omega
      · next e =>
        by_contra hc
        have hab : b ≤ a + c := by omega
        have hab2 : (b : ℚ) + 1 ≤ a + c + 1 := by exact_mod_cast (by omega : b + 1 ≤ a + c + 1)
        have := mul_le_mul_of_nonneg_right hab2 hw.le
        exact e (by linarith)
  · rw [c3 h.symm]
    have hF : ¬ EndsOnFarFace p q w i := by
      rintro (h' | h')
      · exact absurd h'.1 (by rw [h]; exact lt_irrefl _)
      · exact absurd h'.1 (by rw [h]; exact lt_irrefl _)
    have e : pointToNearestIndex q (1 / w) i = pointToNearestIndex p (1 / w) i := by
      unfold pointToNearestIndex scaledPointToNearestIndex; dsimp only; rw [h]
    rw [e, if_neg hF]
    constructor
    · intro hc; simp at hc
    · intro hg
      have : (0 : ℚ) ≤ c := by positivity
      linarith
  · rw [c2 h]
    have hm := nearest_mono q p w hw i h.le
    have hF : EndsOnFarFace p q w i ↔ q i = (pointToNearestIndex q (1 / w) i : ℚ) * w := by
      unfold EndsOnFarFace
      exact ⟨fun h' => h'.elim (fun h' => absurd h'.1 (not_lt.2 h.le)) And.right, fun h' => Or.inr ⟨h, h'⟩⟩
    simp only [hF]
    generalize pointToNearestIndex p (1 / w) i = a at *
    generalize pointToNearestIndex q (1 / w) i = b at *
    have hpos : (0 : ℚ) < p i - q i := by linarith
    rw [div_le_one hpos]
    constructor
    · intro hc
      split at hc
      · next e =>
        have hc' : b ≤ a - c := by omega
        have hc2 : (b : ℚ) ≤ a - c := by exact_mod_cast hc'
        have hle : (b : ℚ) * w ≤ (a - c) * w := mul_le_mul_of_nonneg_right hc2 hw.le
        linarith
      · have hc' : b + 1 ≤ a - c := by omega
        have hc2 : (b : ℚ) + 1 ≤ a - c := by exact_mod_cast hc'
        have hle : ((b : ℚ) + 1) * w ≤ (a - c) * w := mul_le_mul_of_nonneg_right hc2 hw.le
        linarith
    · intro hg
      have hle : (b : ℚ) ≤ a - c := le_of_mul_le_mul_right (by linarith) hw
      have hle' : b ≤ a - c := by exact_mod_cast hle
      split
      · omega
      · next e =>
        by_contra hc
        have hab : a - c ≤ b := by omega
        have hab2 : (a : ℚ) - c ≤ b := by exact_mod_cast hab
        have := mul_le_mul_of_nonneg_right hab2 hw.le
        exact e (by linarith)

/-- The ray, continued through the boundaries that it meets at its very end. -/
noncomputable def closedRay (p q : Point d) (w : ℚ) : Ray d :=
  { Ray.ofPoints p q w with
    stop := fun i => (Ray.ofPoints p q w).start i + (Ray.ofPoints p q w).signs i * closedCrossings p q w i
    lengthInSteps := ∑ i, closedCrossings p q w i + 1 }

theorem closed_of_eq {p q : Point d} (w : ℚ) {i : Fin d} (h : p i = q i) : closedCrossings p q w i = 0 := by
  have hF : ¬ EndsOnFarFace p q w i := by
    rintro (h' | h')
    · exact absurd h'.1 (by rw [h]; exact lt_irrefl _)
    · exact absurd h'.1 (by rw [h]; exact lt_irrefl _)
  have e : pointToNearestIndex q (1 / w) i = pointToNearestIndex p (1 / w) i := by
    unfold pointToNearestIndex scaledPointToNearestIndex; dsimp only; rw [h]
  unfold closedCrossings
  rw [e, if_neg hF]
  simp

theorem closed_walk (p q : Point d) (w : ℚ) (hw : 0 < w) : Walk (closedRay p q w) (closedCrossings p q w) (fun t => t ≤ 1) where
  stop _ := rfl
  len := rfl
  good i c := crossing_le_one p q w hw i c
  down _ _ h1 h2 := h1.trans h2
  le_one _ h := h
  init_nonneg i := by
    show 0 ≤ (Ray.ofPoints p q w).tInit i
    have := ofPoints_cross p q w i 0
    simp only [zero_mul, add_zero] at this
    obtain ⟨c1, c2, c3⟩ := this
    have hb := nearest_bounds p w hw i
    rcases lt_trichotomy (p i) (q i) with h | h | h
    · rw [c1 h]; exact div_nonneg (by linarith) (by linarith)
    · rw [c3 h.symm]; norm_num
    · rw [c2 h]; exact div_nonneg (by linarith) (by linarith)
  step_nonneg i := by
    show (0 : ℚ) ≤ if q i - p i = 0 then (2 : ℚ) else coordMinCorner (ratSign (q i - p i)) w / (q i - p i)
    unfold ratSign coordMinCorner
    rcases lt_trichotomy (p i) (q i) with h | h | h
    · rw [if_neg (by linarith), if_pos (by linarith)]
      exact div_nonneg (by push_cast; linarith) (by linarith)
    · rw [if_pos (by linarith)]; norm_num
    · rw [if_neg (by linarith), if_neg (by linarith), if_pos (by linarith)]
      exact div_nonneg_of_nonpos (by push_cast; linarith) (by linarith)
  sign i hn := by
    show ratSign (q i - p i) = 1 ∨ ratSign (q i - p i) = -1
    unfold ratSign
    rcases lt_trichotomy (p i) (q i) with h | h | h
    · left; rw [if_pos (by linarith)]
    · rw [closed_of_eq w h] at hn; exact absurd hn (lt_irrefl _)
    · right; rw [if_neg (by linarith), if_pos (by linarith)]

/-- After the boundaries up to parameter `T`, the ray is in the cell at `T`. -/
theorem closed_touch {p q : Point d} {w : ℚ} (hw : 0 < w) {cell : Index d} {c : Fin d → Nat} {T : ℚ}
    (hi : WInv (closedRay p q w) (closedCrossings p q w) cell c T) (i : Fin d) :
    (cell i : ℚ) * w ≤ p i + T * (q i - p i) ∧ p i + T * (q i - p i) ≤ ((cell i : ℚ) + 1) * w := by
  have hcur : cell i = pointToNearestIndex p (1 / w) i + ratSign (q i - p i) * c i := hi.cur i
  have hnext : T ≤ (Ray.ofPoints p q w).tInit i + c i * (Ray.ofPoints p q w).tStep i := hi.next i
  have hprev : 0 < c i → (Ray.ofPoints p q w).tInit i + ((c i : ℚ) - 1) * (Ray.ofPoints p q w).tStep i ≤ T := hi.prev i
  have hb := nearest_bounds p w hw i
  have hT0 := hi.T0
  obtain ⟨c1, c2, c3⟩ := ofPoints_cross p q w i (c i)
  obtain ⟨d1, d2, d3⟩ := ofPoints_cross p q w i ((c i : ℚ) - 1)
  rw [hcur]
  unfold ratSign
  rcases lt_trichotomy (p i) (q i) with h | h | h
  · rw [if_pos (by linarith)]
    rw [c1 h] at hnext
    rw [d1 h] at hprev
    have hpos : (0 : ℚ) < q i - p i := by linarith
    rw [le_div_iff₀ hpos] at hnext
    rw [div_le_iff₀ hpos] at hprev
    push_cast
    constructor
    · rcases Nat.eq_zero_or_pos (c i) with hz | hk
      · rw [hz]; have : 0 ≤ T * (q i - p i) := by positivity
        push_cast; linarith
      · have := hprev hk; linarith
    · linarith
  · have hz : c i = 0 := by
      have := hi.le i
      rw [closed_of_eq w h] at this
      omega
    rw [hz, h]
    rw [h] at hb
    have : q i + T * (q i - q i) = q i := by ring
    rw [this]; simpa using hb
  · rw [if_neg (by linarith), if_pos (by linarith)]
    rw [c2 h] at hnext
    rw [d2 h] at hprev
    have hpos : (0 : ℚ) < p i - q i := by linarith
    rw [le_div_iff₀ hpos] at hnext
    rw [div_le_iff₀ hpos] at hprev
    push_cast
    constructor
    · linarith
    · rcases Nat.eq_zero_or_pos (c i) with hz | hk
      · rw [hz]; have : 0 ≤ T * (p i - q i) := by positivity
        push_cast; linarith
      · have := hprev hk; linarith

/-- **C30** Along any ray between two points, the visited cells start at the cell of the first point and end at a cell that contains the second point or
has it on its boundary, each step moves by one along one axis, in a direction that never reverses, no cell is visited twice, and each visited cell is touched
by the ray. (`C30_point_ray_partial` adds that the last cell is the one the second point is assigned to, except in the case of `C30_point_ray_fails`.) -/
theorem C30_point_ray (p q : Point d) (w : ℚ) (hw : 0 < w) (cells : List (Index d)) (h : RayCells (Ray.ofPoints p q w) cells) :
    cells.head? = some (pointToNearestIndex p (1 / w)) ∧
    (∃ last, cells.getLast? = some last ∧ ∀ i, (last i : ℚ) * w ≤ q i ∧ q i ≤ ((last i : ℚ) + 1) * w) ∧
    (∃ stop, cells.IsChain (StepTowards stop)) ∧ cells.Nodup ∧
    ∀ cell ∈ cells, ∃ t : ℚ, 0 ≤ t ∧ t ≤ 1 ∧
      ∀ i, (cell i : ℚ) * w ≤ p i + t * (q i - p i) ∧ p i + t * (q i - p i) ≤ ((cell i : ℚ) + 1) * w := by
  obtain ⟨hl, hv⟩ := h
  have wk := closed_walk p q w hw
  have hlen : cells.length = ∑ i, (pointToNearestIndex q (1 / w) i - pointToNearestIndex p (1 / w) i).natAbs + 1 := hl
  have hle : ∑ i, (pointToNearestIndex q (1 / w) i - pointToNearestIndex p (1 / w) i).natAbs ≤ ∑ i, closedCrossings p q w i :=
    Finset.sum_le_sum fun i _ => Nat.le_add_right _ _
  obtain ⟨h1, h2, h3, h4⟩ := walk_visit_le wk (rayBegin (Ray.ofPoints p q w)) cells (RayVisit.congr (r := Ray.ofPoints p q w) (r' := closedRay p q w) rfl rfl hv) (fun _ => 0) 0 (WInv.init wk)
    (by intro i; show (Ray.ofPoints p q w).tInit i = (Ray.ofPoints p q w).tInit i + _; simp)
    (by simp only [Finset.sum_const_zero, add_zero]; omega)
  have hne : cells ≠ [] := by rintro rfl; simp at hlen
  refine ⟨h1 hne, ?_, ⟨_, h2⟩, chain_nodup _ _ h2, fun cell hc => ?_⟩
  · obtain ⟨last, hlast⟩ : ∃ last, cells.getLast? = some last := ⟨_, List.getLast?_eq_getLast_of_ne_nil hne⟩
    obtain ⟨c, T, hi, hsum⟩ := h4 last hlast
    refine ⟨last, hlast, ?_⟩
    have hnext : ∀ i, 1 ≤ (Ray.ofPoints p q w).tInit i + c i * (Ray.ofPoints p q w).tStep i := by
      intro j
      by_contra hj
      rw [not_le] at hj
      have hT : T < 1 := lt_of_le_of_lt (hi.next j) hj
      have hcj := crossing_lt_one p q w hw j (c j) hj
      have hci : ∀ i, c i ≤ (pointToNearestIndex q (1 / w) i - pointToNearestIndex p (1 / w) i).natAbs := by
        intro i
        rcases Nat.eq_zero_or_pos (c i) with hz | hk
        · omega
        · have := crossing_lt_one p q w hw i (c i - 1) (by
            rw [Nat.cast_sub hk, Nat.cast_one]
            exact lt_of_le_of_lt (hi.prev i hk) hT)
          omega
      have : ∑ i, c i < ∑ i, (pointToNearestIndex q (1 / w) i - pointToNearestIndex p (1 / w) i).natAbs :=
        Finset.sum_lt_sum (fun i _ => hci i) ⟨j, Finset.mem_univ j, hcj⟩
      simp only [Finset.sum_const_zero, zero_add] at hsum
      omega
    have hi1 : WInv (closedRay p q w) (closedCrossings p q w) last c 1 :=
      ⟨hi.cur, hi.le, by norm_num, le_refl _, hnext, fun i hk => (hi.prev i hk).trans hi.T1⟩
    intro i
    have := closed_touch hw hi1 i
    rw [one_mul, add_sub_cancel] at this
    exact this
  · obtain ⟨c, T, hi⟩ := h3 cell hc
    exact ⟨T, hi.T0, hi.T1, closed_touch hw hi⟩

/-- The hypothesis of `C30_point_ray_partial` holds in particular when no coordinate of the end point is a multiple of
the cell width. -/
theorem C30_point_ray_generic_end (p q : Point d) (w : ℚ) (hq : ∀ i (m : Int), q i ≠ m * w) :
    ¬ ((∃ i, EndsOnNearFace p q w i) ∧ ∃ j, EndsOnFarFace p q w j) := by
  rintro ⟨⟨i, h | h⟩, _⟩
  · exact hq i _ h.2
  · exact hq i (pointToNearestIndex q (1 / w) i + 1) (by push_cast; exact h.2)

/-- **C30, violation** Along the ray from (-3/2, 1/2) to (0, 2) with unit cells, the visited cells end at (0, 1), whereas
the end point lies in cell (-1, 2): when both axes reach a boundary exactly at the end of the ray, only the first axis
may step, although it is the second axis whose rounding moved the end index. -/
theorem C30_point_ray_fails :
    RayCells (Ray.ofPoints ![(-3 / 2 : ℚ), 1 / 2] ![0, 2] 1)
      [![-2, 0], ![-1, 0], ![-1, 1], ![0, 1]] ∧
    pointToNearestIndex ![(0 : ℚ), 2] (1 / 1) = ![-1, 2] := by
  have hs : (Ray.ofPoints ![(-3 / 2 : ℚ), 1 / 2] ![0, 2] 1).start = ![-2, 0] := by funext i; revert i; decide +kernel
  have hsg : (Ray.ofPoints ![(-3 / 2 : ℚ), 1 / 2] ![0, 2] 1).signs = ![1, 1] := by funext i; revert i; decide +kernel
  have hst : (Ray.ofPoints ![(-3 / 2 : ℚ), 1 / 2] ![0, 2] 1).tStep = ![2/3, 2/3] := by funext i; revert i; decide +kernel
  have hin : (Ray.ofPoints ![(-3 / 2 : ℚ), 1 / 2] ![0, 2] 1).tInit = ![1/3, 1/3] := by funext i; revert i; decide +kernel
  refine ⟨⟨by decide +kernel, ?_⟩, by funext i; revert i; decide +kernel⟩
  have step : ∀ (c c' : Index 2) (t t' : Point 2) (k : Fin 2) (l : List (Index 2)),
      RayVisit (Ray.ofPoints ![(-3 / 2 : ℚ), 1 / 2] ![0, 2] 1) ⟨c', t'⟩ l → l ≠ [] → IsMinCoeff t k →
      (∀ i, c' i = if i = k then c i + (![1, 1] : Index 2) i else c i) →
      (∀ i, t' i = if i = k then t i + (![2/3, 2/3] : Point 2) i else t i) →
      RayVisit (Ray.ofPoints ![(-3 / 2 : ℚ), 1 / 2] ![0, 2] 1) ⟨c, t⟩ (c :: l) := by
    intro c c' t t' k l hv hne hk h1 h2
    refine RayVisit.next ⟨c, t⟩ k l hk hne ?_
    have : rayNext (Ray.ofPoints ![(-3 / 2 : ℚ), 1 / 2] ![0, 2] 1) k ⟨c, t⟩ = ⟨c', t'⟩ := by
      unfold rayNext; rw [hsg, hst]
      congr 1
      · funext i; exact (h1 i).symm
      · funext i; exact (h2 i).symm
    rw [this]; exact hv
  have e : rayBegin (Ray.ofPoints ![(-3 / 2 : ℚ), 1 / 2] ![0, 2] 1) = ⟨![-2, 0], ![1/3, 1/3]⟩ := by
    unfold rayBegin; rw [hs, hin]
  rw [e]
  refine step _ ![-1, 0] _ ![1, 1/3] 0 _ ?_ (by simp) (by unfold IsMinCoeff; decide +kernel) (by decide +kernel) (by decide +kernel)
  refine step _ ![-1, 1] _ ![1, 1] 1 _ ?_ (by simp) (by unfold IsMinCoeff; decide +kernel) (by decide +kernel) (by decide +kernel)
  refine step _ ![0, 1] _ ![5/3, 1] 0 _ ?_ (by simp) (by unfold IsMinCoeff; decide +kernel) (by decide +kernel) (by decide +kernel)
  exact RayVisit.last ⟨![0, 1], ![5/3, 1]⟩

/-- Non-vacuity of `C30_index_ray`: a diagonal ray, with a tie. -/
example : ∃ cells, RayCells (Ray.ofIndices ![0, 0] ![1, -1]) cells := C30_ray_iterable (by decide) _ (by decide +kernel)

/-- A ray that ends inside a cell: it is traced from the first cell to the last one. -/
example (cells : List (Index 2)) (h : RayCells (Ray.ofPoints ![1 / 2, 1 / 3] ![7 / 2, -5 / 2] 1) cells) :
    cells.head? = some ![0, 0] ∧ cells.getLast? = some ![3, -3] := by
  have hend : ∀ i, ¬ EndsOnNearFace (![1 / 2, 1 / 3] : Point 2) ![7 / 2, -5 / 2] 1 i := by
    unfold EndsOnNearFace; decide +kernel
  have := C30_point_ray_partial ![1 / 2, 1 / 3] ![7 / 2, -5 / 2] 1 one_pos (fun h => h.1.elim fun i hi => hend i hi) cells h
  have e1 : pointToNearestIndex (![1 / 2, 1 / 3] : Point 2) (1 / 1) = ![0, 0] := by decide +kernel
  have e2 : pointToNearestIndex (![7 / 2, -5 / 2] : Point 2) (1 / 1) = ![3, -3] := by decide +kernel
  rw [e1, e2] at this
  exact ⟨this.1, this.2.1⟩

end Wavemap
