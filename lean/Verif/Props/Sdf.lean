import Verif.Lemmas.SdfFull
/-!
# C49: signed distance fields

Specification: points, cells and distances as such; the class of a cell is that of C27 (`IsClass`) for its value in the occupancy
map. `SdfOk` lists what a generated field guarantees for every cell.
-/
namespace Wavemap

/-! ## Specification -/

noncomputable section

/-- Distance between two points. -/
def pointDist (p q : Fin 3 → ℝ) : ℝ := Real.sqrt ((p 0 - q 0) ^ 2 + (p 1 - q 1) ^ 2 + (p 2 - q 2) ^ 2)

/-- Centre of a cell of width `w`. -/
def sdfCenter (w : ℝ) (j : Index 3) : Fin 3 → ℝ := fun i => ((j i : ℝ) + 1 / 2) * w

/-- The point lies in the cell, boundary included. -/
def InSdfCell (w : ℝ) (j : Index 3) (q : Fin 3 → ℝ) : Prop := ∀ i, (j i : ℝ) * w ≤ q i ∧ q i ≤ ((j i : ℝ) + 1) * w

/-- The cells are equal or share a face, an edge or a corner. -/
def CellsTouch (j k : Index 3) : Prop := ∀ i, |j i - k i| ≤ 1

/-- Guarantees of a distance field `r` with maximum distance `D`, for an occupancy map whose cells have the classes `cls` and
width `w`. -/
structure SdfOk (cls : Index 3 → OccClass → Prop) (D w : ℝ) (r : Index 3 → ℝ) : Prop where
  /-- Only occupied cells are negative. -/
  negative : ∀ j, r j < 0 → cls j .occupied
  /-- Below the maximum distance, only free cells are positive. -/
  positive : ∀ j, 0 < r j → r j < D → cls j .free
  /-- No distance is zero, and none exceeds the maximum. -/
  range : ∀ j, r j ≠ 0 ∧ |r j| ≤ D
  /-- Unobserved cells have the maximum distance. -/
  unobserved : ∀ j, cls j .unobserved → r j = D
  /-- The distance of a free cell is not less than that to the nearest obstacle. -/
  attained : ∀ j, cls j .free → r j < D → ∃ k q, cls k .occupied ∧ InSdfCell w k q ∧ pointDist (sdfCenter w j) q ≤ r j
  /-- The distance of a free cell that touches an obstacle is not more than that to the nearest obstacle. -/
  surface : ∀ j, cls j .free → (∃ k, cls k .occupied ∧ CellsTouch j k) →
    ∀ k q, cls k .occupied → InSdfCell w k q → r j ≤ pointDist (sdfCenter w j) q

end

/-! ## Proofs -/

theorem pointDist_eq (w : ℝ) (j : Index 3) (q : Fin 3 → ℝ) :
    pointDist (sdfCenter w j) q = vecNorm fun i => ((j i : ℝ) + 1 / 2) * w - q i := rfl

theorem HashedWaveletOctree.Reachable.width {m : HashedWaveletOctree} (hm : m.Reachable) : (0 : ℝ) < m.config.minCellWidth := by
  obtain ⟨config, hc, _, ops, rfl⟩ := hm
  have : ∀ (ops : List HashedWaveletOp) (m : HashedWaveletOctree), (ops.foldl HashedWaveletOp.run m).config = m.config := by
    intro ops
    induction ops with
    | nil => intro m; rfl
    | cons o ops ih => intro m; rw [List.foldl_cons, ih, HashedWaveletOctree.run_config]
  rw [this]
  unfold HashedWaveletOctreeConfig.isValid at hc
  simp only [Bool.and_eq_true, decide_eq_true_eq] at hc
  exact_mod_cast hc.1.1

/-- Non-touching cells are farther from the centre than touching ones. -/
theorem surface_of_bound {cls : Index 3 → OccClass} {w : ℝ} (hw : 0 < w) {f : Index 3 → ℝ} (hB : QuasiSdf.Bound cls w f) (j : Index 3)
    (hj : cls j = .free) (h : ∃ k, cls k = .occupied ∧ CellsTouch j k) (k : Index 3) (q : Fin 3 → ℝ) (hk : cls k = .occupied)
    (hq : InSdfCell w k q) : f j ≤ pointDist (sdfCenter w j) q := by
  rw [pointDist_eq]
  by_cases ht : CellsTouch j k
  · refine (hB j k hj hk ht).trans ?_
    rw [← FullSdf.minDistanceTo_touching w hw j k ht]
    exact (FullSdf.minDistanceTo_spec w hw j k).2 q hq
  · obtain ⟨k', hk', ht'⟩ := h
    refine (hB j k' hj hk' ht').trans ?_
    have h1 := indexNorm_le_sqrt3 (fun i => j i - k' i) ht'
    have h2 : Real.sqrt 3 ≤ 2 := by rw [Real.sqrt_le_left (by norm_num)]; norm_num
    have h3 : 1 / 2 * w * (indexNorm fun i => j i - k' i) ≤ w := by nlinarith
    refine h3.trans ?_
    unfold CellsTouch at ht
    push Not at ht
    obtain ⟨i, hi⟩ := ht
    refine le_trans ?_ (vecNorm_ge _ i)
    obtain ⟨h4, h5⟩ := hq i
    rcases lt_abs.1 hi with hi | hi
    · have : (k i : ℝ) + 2 ≤ j i := by exact_mod_cast (by omega : k i + 2 ≤ j i)
      rw [abs_of_nonneg (by nlinarith)]; nlinarith
    · have : (j i : ℝ) + 2 ≤ k i := by exact_mod_cast (by omega : j i + 2 ≤ k i)
      rw [abs_of_nonpos (by nlinarith)]; nlinarith

theorem sdfClass_iff (m : HashedWaveletOctree) (cl : OccClassifier) (j : Index 3) (k : OccClass) :
    sdfClass m cl j = k ↔ IsClass cl.threshold (m.getCellValue j) k := classOf_iff _ _ _

theorem isClass_eq (m : HashedWaveletOctree) (cl : OccClassifier) :
    (fun j => IsClass cl.threshold (m.getCellValue j)) = fun j k => sdfClass m cl j = k := by
  funext j k
  exact propext (sdfClass_iff m cl j k).symm

/-- Quasi-Euclidean generator: generation ends, without reading outside its containers and with its internal check satisfied, and
the field satisfies `SdfOk`. In occupied cells the magnitude is not less than the distance to the nearest free cell. Missing with
respect to the claim: occupied cells that propagation does not reach are positive (`C49_sign_fails`). -/
theorem C49_quasi_partial (D : ℝ) (hD : 0 < D) (cl : OccClassifier) (m : HashedWaveletOctree) (hm : m.Reachable) :
    ∃ r : DenseBlockHash 3 4 ℝ, (∃ N, ∀ fuel ≥ N, QuasiSdf.generate D cl m fuel = some r) ∧
      SdfOk (fun j => IsClass cl.threshold (m.getCellValue j)) D m.config.minCellWidth r.getValueOrDefault ∧
      ∀ j, r.getValueOrDefault j < 0 → ∃ k q, IsClass cl.threshold (m.getCellValue k) .free ∧ InSdfCell m.config.minCellWidth k q ∧
        pointDist (sdfCenter m.config.minCellWidth j) q ≤ -r.getValueOrDefault j := by
  have hw := hm.width
  obtain ⟨r, h1, h2, h3, h4⟩ := QuasiSdf.generate_spec D hD cl m hm hw
  refine ⟨r, h1, ?_, ?_⟩
  · rw [isClass_eq]
    refine ⟨fun j hj => ?_, fun j h5 h6 => ?_, fun j => ?_, fun j hj => ?_, fun j hj h5 => ?_, fun j hj h5 k q hk hq => ?_⟩
    · rcases h3 j with h | ⟨_, h, _⟩ | ⟨h, _⟩
      · linarith
      · linarith
      · exact h
    · rcases h3 j with h | ⟨h, _⟩ | ⟨_, h, _⟩
      · linarith
      · exact h
      · linarith
    · rcases h3 j with h | ⟨_, h, h', _⟩ | ⟨_, h, h', _⟩
      · rw [h]; exact ⟨hD.ne', (abs_of_pos hD).le⟩
      · exact ⟨h.ne', by rw [abs_of_pos h]; exact h'.le⟩
      · exact ⟨h.ne, by rw [abs_of_neg h]; linarith⟩
    · rcases h3 j with h | ⟨h, _⟩ | ⟨h, _⟩
      · exact h
      · rw [hj] at h; cases h
      · rw [hj] at h; cases h
    · rcases h3 j with h | ⟨_, h6, _, k, hk, q, hq, hd⟩ | ⟨h, _⟩
      · linarith
      · rw [abs_of_pos h6] at hd
        exact ⟨k, q, hk, hq, hd⟩
      · rw [hj] at h; cases h
    · exact surface_of_bound hw h4 j hj h5 k q hk hq
  · intro j hj
    rcases h3 j with h | ⟨_, h, _⟩ | ⟨_, _, _, k, hk, q, hq, hd⟩
    · linarith
    · linarith
    · rw [abs_of_neg hj] at hd
      exact ⟨k, q, (sdfClass_iff m cl k .free).1 hk, hq, hd⟩

/-- Full Euclidean generator: generation ends, without reading outside its containers and with its internal check satisfied, and the
field satisfies `SdfOk`. Every magnitude below the maximum is exactly the distance to a cell of the opposite class, and cells at minus
the maximum touch a free cell. Condition: the map is not so large that observed cells get close to the index that stands for "no
parent". Missing with respect to the claim: occupied cells that propagation does not reach are positive (`C49_sign_fails`). -/
theorem C49_full_partial (D : ℝ) (hD : 0 < D) (cl : OccClassifier) (m : HashedWaveletOctree) (hm : m.Reachable)
    (hfar : ∀ j, ¬ IsClass cl.threshold (m.getCellValue j) .unobserved →
      ∃ i, D ≤ (m.config.minCellWidth : ℝ) * ((2147483645 : ℝ) - j i)) :
    ∃ r : DenseBlockHash 3 4 ℝ, (∃ N, ∀ fuel ≥ N, FullSdf.generate D cl m fuel = some r) ∧
      SdfOk (fun j => IsClass cl.threshold (m.getCellValue j)) D m.config.minCellWidth r.getValueOrDefault ∧
      (∀ j, |r.getValueOrDefault j| < D → ∃ k,
        IsClass cl.threshold (m.getCellValue k) (if r.getValueOrDefault j < 0 then .free else .occupied) ∧
        (∃ q, InSdfCell m.config.minCellWidth k q ∧ pointDist (sdfCenter m.config.minCellWidth j) q = |r.getValueOrDefault j|) ∧
        ∀ q, InSdfCell m.config.minCellWidth k q → |r.getValueOrDefault j| ≤ pointDist (sdfCenter m.config.minCellWidth j) q) ∧
      ∀ j, r.getValueOrDefault j = -D → ∃ k, IsClass cl.threshold (m.getCellValue k) .free ∧ CellsTouch j k := by
  have hw := hm.width
  have hF : FullSdf.Far (sdfClass m cl) D m.config.minCellWidth := fun j hj =>
    hfar j fun h => hj ((sdfClass_iff m cl j _).2 h)
  obtain ⟨r, h1, h2, f, hf, h3, h4⟩ := FullSdf.generate_spec D hD cl m hm hw hF
  have hpos : ∀ j, FullSdf.CellOk (sdfClass m cl) D m.config.minCellWidth j (f.getValueOrDefault j) →
      (sdfClass m cl j = .free ∧ 0 < (f.getValueOrDefault j).distance ∧ (f.getValueOrDefault j).distance < D ∧
        sdfClass m cl (f.getValueOrDefault j).parent = .occupied ∧
        |(f.getValueOrDefault j).distance| = FullSdf.minDistanceTo j (f.getValueOrDefault j).parent m.config.minCellWidth) ∨
      (sdfClass m cl j = .occupied ∧ (f.getValueOrDefault j).distance < 0 ∧ -D < (f.getValueOrDefault j).distance ∧
        sdfClass m cl (f.getValueOrDefault j).parent = .free ∧
        |(f.getValueOrDefault j).distance| = FullSdf.minDistanceTo j (f.getValueOrDefault j).parent m.config.minCellWidth) := by
    intro j h
    have hp := h.pos hw
    rcases h with ⟨h5, h6, h7, h8⟩ | ⟨h5, h6, h7, h8⟩
    · have := hp.1 h5
      exact Or.inl ⟨h5, this, h8, h6, by rw [abs_of_pos this]; exact h7⟩
    · have := hp.2 h5
      exact Or.inr ⟨h5, this, h8, h6, by rw [abs_of_neg this, h7, neg_neg]⟩
  refine ⟨r, h1, ?_, ?_, ?_⟩
  · rw [isClass_eq]
    refine ⟨fun j hj => ?_, fun j h5 h6 => ?_, fun j => ?_, fun j hj => ?_, fun j hj h5 => ?_, fun j hj h5 k q hk hq => ?_⟩
    · rw [hf] at hj
      rcases h3 j with ⟨_, h | ⟨_, h, _⟩⟩ | h
      · linarith
      · exact h
      · rcases hpos j h with h | h
        · linarith [h.2.1]
        · exact h.1
    · rw [hf] at h5 h6
      rcases h3 j with ⟨_, h | ⟨h, _⟩⟩ | h
      · linarith
      · linarith
      · rcases hpos j h with h | h
        · exact h.1
        · linarith [h.2.1]
    · rw [hf]
      rcases h3 j with ⟨_, h | ⟨h, _⟩⟩ | h
      · rw [h]; exact ⟨hD.ne', (abs_of_pos hD).le⟩
      · rw [h, abs_neg]; exact ⟨by linarith, (abs_of_pos hD).le⟩
      · rcases hpos j h with h | h
        · exact ⟨h.2.1.ne', by rw [abs_of_pos h.2.1]; exact h.2.2.1.le⟩
        · exact ⟨h.2.1.ne, by rw [abs_of_neg h.2.1]; linarith [h.2.2.1]⟩
    · rw [hf]
      rcases h3 j with ⟨_, h | ⟨_, h, _⟩⟩ | h
      · exact h
      · rw [hj] at h; cases h
      · rcases hpos j h with ⟨h, _⟩ | ⟨h, _⟩ <;> rw [hj] at h <;> cases h
    · rw [hf] at h5 ⊢
      rcases h3 j with ⟨_, h | ⟨_, h, _⟩⟩ | h
      · linarith
      · rw [hj] at h; cases h
      · rcases hpos j h with ⟨_, h6, _, h7, h8⟩ | ⟨h, _⟩
        · obtain ⟨q, hq, hd⟩ := (FullSdf.minDistanceTo_spec _ hw j (f.getValueOrDefault j).parent).1
          refine ⟨_, q, h7, hq, ?_⟩
          rw [pointDist_eq, hd, ← h8, abs_of_pos h6]
        · rw [hj] at h; cases h
    · exact surface_of_bound hw h4 j hj h5 k q hk hq
  · intro j hj
    rw [hf] at hj ⊢
    rcases h3 j with ⟨_, h | ⟨h, _⟩⟩ | h
    · rw [h, abs_of_pos hD] at hj; exact absurd hj (lt_irrefl _)
    · rw [h, abs_neg, abs_of_pos hD] at hj; exact absurd hj (lt_irrefl _)
    · obtain ⟨⟨q, hq, hd⟩, hall⟩ := FullSdf.minDistanceTo_spec _ hw j (f.getValueOrDefault j).parent
      refine ⟨(f.getValueOrDefault j).parent, ?_, ?_⟩
      · rw [← sdfClass_iff]
        rcases hpos j h with h | h
        · rw [if_neg (not_lt.2 h.2.1.le)]; exact h.2.2.2.1
        · rw [if_pos h.2.1]; exact h.2.2.2.1
      · have h8 : |(f.getValueOrDefault j).distance| = FullSdf.minDistanceTo j (f.getValueOrDefault j).parent m.config.minCellWidth := by
          rcases hpos j h with h | h
          · exact h.2.2.2.2
          · exact h.2.2.2.2
        rw [h8]
        exact ⟨⟨q, hq, hd⟩, hall⟩
  · intro j hj
    rw [hf] at hj
    rcases h3 j with ⟨_, h | ⟨_, _, k, hk, ht⟩⟩ | h
    · linarith
    · exact ⟨k, (sdfClass_iff m cl k _).1 hk, ht⟩
    · rcases hpos j h with h | h
      · linarith [h.2.1]
      · linarith [h.2.2.1]

theorem generates_unique {α : Type} {f : Nat → Option α} {a b : α} (ha : ∃ N, ∀ fuel ≥ N, f fuel = some a)
    (hb : ∃ N, ∀ fuel ≥ N, f fuel = some b) : a = b := by
  obtain ⟨N, hN⟩ := ha
  obtain ⟨M, hM⟩ := hb
  exact Option.some_inj.1 ((hN (max N M) (le_max_left _ _)).symm.trans (hM (max N M) (le_max_right _ _)))

/-- Occupied cells without a free cell nearby get the positive maximum distance from the quasi-Euclidean generator. -/
theorem C49_quasi_deep_obstacle (D : ℝ) (hD : 0 < D) (cl : OccClassifier) (m : HashedWaveletOctree) (hm : m.Reachable) (j : Index 3)
    (hj : IsClass cl.threshold (m.getCellValue j) .occupied)
    (hno : ∀ k q, IsClass cl.threshold (m.getCellValue k) .free → InSdfCell m.config.minCellWidth k q →
      D < pointDist (sdfCenter m.config.minCellWidth j) q)
    (r : DenseBlockHash 3 4 ℝ) (hr : ∃ N, ∀ fuel ≥ N, QuasiSdf.generate D cl m fuel = some r) : r.getValueOrDefault j = D := by
  obtain ⟨r', h1, h2, h3⟩ := C49_quasi_partial D hD cl m hm
  cases generates_unique hr h1
  rcases lt_or_ge (r.getValueOrDefault j) 0 with h | h
  · obtain ⟨k, q, hk, hq, hd⟩ := h3 j h
    have h4 := hno k q hk hq
    have h5 := (h2.range j).2
    rw [abs_of_neg h] at h5
    linarith
  · have h4 := h2.range j
    have h5 := le_of_abs_le h4.2
    by_contra hne
    have h6 := h2.positive j (lt_of_le_of_ne h (Ne.symm h4.1)) (lt_of_le_of_ne h5 hne)
    have := (sdfClass_iff m cl j _).2 h6
    rw [(sdfClass_iff m cl j _).2 hj] at this
    cases this

/-- Occupied cells without a free cell nearby get the positive maximum distance from the full Euclidean generator. -/
theorem C49_full_deep_obstacle (D : ℝ) (hD : 0 < D) (cl : OccClassifier) (m : HashedWaveletOctree) (hm : m.Reachable)
    (hfar : ∀ j, ¬ IsClass cl.threshold (m.getCellValue j) .unobserved →
      ∃ i, D ≤ (m.config.minCellWidth : ℝ) * ((2147483645 : ℝ) - j i)) (j : Index 3)
    (hj : IsClass cl.threshold (m.getCellValue j) .occupied)
    (hno : ∀ k, IsClass cl.threshold (m.getCellValue k) .free → ¬ CellsTouch j k ∧
      ∀ q, InSdfCell m.config.minCellWidth k q → D < pointDist (sdfCenter m.config.minCellWidth j) q)
    (r : DenseBlockHash 3 4 ℝ) (hr : ∃ N, ∀ fuel ≥ N, FullSdf.generate D cl m fuel = some r) : r.getValueOrDefault j = D := by
  obtain ⟨r', h1, h2, h3, h3'⟩ := C49_full_partial D hD cl m hm hfar
  cases generates_unique hr h1
  have h4 := h2.range j
  rcases lt_or_ge (r.getValueOrDefault j) 0 with h | h
  · rcases lt_or_eq_of_le h4.2 with h5 | h5
    · obtain ⟨k, hk, ⟨q, hq, hd⟩, _⟩ := h3 j h5
      rw [if_pos h] at hk
      have := (hno k hk).2 q hq
      linarith
    · rw [abs_of_neg h] at h5
      obtain ⟨k, hk, ht⟩ := h3' j (by linarith)
      exact absurd ht (hno k hk).1
  · have h5 := le_of_abs_le h4.2
    by_contra hne
    have h6 := h2.positive j (lt_of_le_of_ne h (Ne.symm h4.1)) (lt_of_le_of_ne h5 hne)
    have := (sdfClass_iff m cl j _).2 h6
    rw [(sdfClass_iff m cl j _).2 hj] at this
    cases this

/-! ## Witnesses -/

/-- Three occupied cells in a row and a free cell next to the last one. -/
def sdfWitness : HashedWaveletOctree :=
  [(![3, 0, 0], 1, 0), (![4, 0, 0], 1, 0), (![5, 0, 0], 1, 0), (![6, 0, 0], -1, 0)].foldl
    (fun m (o : Index 3 × ℚ × ℚ) => m.addToCellValue o.1 o.2.1 o.2.2) (.create ⟨1, -2, 4, 3, 5⟩)

theorem sdfWitness_reachable : sdfWitness.Reachable :=
  ⟨⟨1, -2, 4, 3, 5⟩, by decide +kernel, by decide,
    [.write (.add ![3, 0, 0] 1 0), .write (.add ![4, 0, 0] 1 0), .write (.add ![5, 0, 0] 1 0), .write (.add ![6, 0, 0] (-1) 0)], rfl⟩

theorem sdfWitness_value (j : Index 3) : sdfWitness.getCellValue j =
    if j = ![3, 0, 0] ∨ j = ![4, 0, 0] ∨ j = ![5, 0, 0] then 1 else if j = ![6, 0, 0] then -1 else 0 := by
  unfold sdfWitness
  rw [C18_add_cells ⟨1, -2, 4, 3, 5⟩ (by decide +kernel) (by decide)]
  by_cases h3 : j = ![3, 0, 0]
  · subst h3; decide +kernel
  by_cases h4 : j = ![4, 0, 0]
  · subst h4; decide +kernel
  by_cases h5 : j = ![5, 0, 0]
  · subst h5; decide +kernel
  by_cases h6 : j = ![6, 0, 0]
  · subst h6; decide +kernel
  rw [if_neg (by tauto), if_neg h6]
  simp only [List.filter_cons, List.filter_nil, eq_comm (b := j), h3, h4, h5, h6, decide_false, Bool.false_eq_true, if_false, List.map_nil, List.sum_nil]

theorem sdfWitness_free (j : Index 3) (h : IsClass 0 (sdfWitness.getCellValue j) .free) : j = ![6, 0, 0] := by
  rw [sdfWitness_value] at h
  obtain ⟨h1, h2⟩ := h
  by_contra h6
  rw [if_neg h6] at h1 h2
  split at h2
  · linarith
  · linarith

theorem sdfWitness_far (D : ℝ) (hD : D ≤ 1000) (j : Index 3) (h : ¬ IsClass 0 (sdfWitness.getCellValue j) .unobserved) :
    ∃ i, D ≤ (sdfWitness.config.minCellWidth : ℝ) * ((2147483645 : ℝ) - j i) := by
  refine ⟨1, ?_⟩
  have hw : (sdfWitness.config.minCellWidth : ℝ) = 1 := by
    have : sdfWitness.config.minCellWidth = 1 := by decide +kernel
    rw [this]; norm_num
  have : j 1 = 0 := by
    by_contra hne
    apply h
    rw [sdfWitness_value, if_neg, if_neg]
    · constructor <;> norm_num
    · rintro rfl; exact hne rfl
    · rintro (rfl | rfl | rfl) <;> exact hne rfl
  rw [hw, this]
  norm_num
  linarith

/-- The conditions of the theorems above are met by a map with occupied, free and unobserved cells; with a maximum distance of 3 the
free cell gets exactly the distance to its neighbour. -/
example : sdfWitness.Reachable ∧ (0 : ℝ) < 3 ∧ (∀ j, ¬ IsClass 0 (sdfWitness.getCellValue j) .unobserved →
      ∃ i, (3 : ℝ) ≤ (sdfWitness.config.minCellWidth : ℝ) * ((2147483645 : ℝ) - j i)) ∧
    IsClass 0 (sdfWitness.getCellValue ![5, 0, 0]) .occupied ∧ IsClass 0 (sdfWitness.getCellValue ![6, 0, 0]) .free ∧
    IsClass 0 (sdfWitness.getCellValue ![7, 0, 0]) .unobserved ∧ CellsTouch ![6, 0, 0] ![5, 0, 0] := by
  refine ⟨sdfWitness_reachable, by norm_num, sdfWitness_far 3 (by norm_num), ?_, ?_, ?_, ?_⟩
  · rw [sdfWitness_value]; exact ⟨Or.inr (by decide +kernel), by decide +kernel⟩
  · rw [sdfWitness_value]; exact ⟨Or.inl (by decide +kernel), by decide +kernel⟩
  · rw [sdfWitness_value]; exact ⟨by decide +kernel, by decide +kernel⟩
  · unfold CellsTouch; decide

/-- A cell with a distance below the maximum shares its block with all the cells it shares a 16-cell cube with. -/
theorem stored_of_block {r : DenseBlockHash 3 4 ℝ} (a b : Index 3) (h : r.getValueOrDefault a ≠ r.defaultValue)
    (hb : indexToBlockIndex 4 a = indexToBlockIndex 4 b) : r.hasValue b = true := by
  unfold DenseBlockHash.hasValue DenseBlockHash.getValue
  rw [Option.isSome_map, ← hb]
  by_contra hn
  rw [Bool.not_eq_true, Option.isSome_eq_false_iff, Option.isNone_iff_eq_none] at hn
  apply h
  unfold DenseBlockHash.getValueOrDefault DenseBlockHash.getValue
  rw [hn]; rfl

/-- A generated field can hold a positive distance for an observed cell that is occupied, not free (both generators). -/
theorem C49_sign_fails : ∃ (D : ℝ) (cl : OccClassifier) (m : HashedWaveletOctree) (j : Index 3), 0 < D ∧ m.Reachable ∧
    IsClass cl.threshold (m.getCellValue j) .occupied ∧
    (∃ r N, (∀ fuel ≥ N, QuasiSdf.generate D cl m fuel = some r) ∧ r.hasValue j = true ∧ 0 < r.getValueOrDefault j) ∧
    (∃ r N, (∀ fuel ≥ N, FullSdf.generate D cl m fuel = some r) ∧ r.hasValue j = true ∧ 0 < r.getValueOrDefault j) := by
  have hw : (sdfWitness.config.minCellWidth : ℝ) = 1 := by
    have : sdfWitness.config.minCellWidth = 1 := by decide +kernel
    rw [this]; norm_num
  have hD : (0 : ℝ) < 3 / 5 := by norm_num
  have hocc : IsClass 0 (sdfWitness.getCellValue ![4, 0, 0]) .occupied := by
    rw [sdfWitness_value]; exact ⟨Or.inr (by decide +kernel), by decide +kernel⟩
  have hocc5 : IsClass 0 (sdfWitness.getCellValue ![5, 0, 0]) .occupied := by
    rw [sdfWitness_value]; exact ⟨Or.inr (by decide +kernel), by decide +kernel⟩
  have hfree : IsClass 0 (sdfWitness.getCellValue ![6, 0, 0]) .free := by
    rw [sdfWitness_value]; exact ⟨Or.inl (by decide +kernel), by decide +kernel⟩
  have hdist : ∀ q, InSdfCell sdfWitness.config.minCellWidth ![6, 0, 0] q → (3 / 5 : ℝ) < pointDist (sdfCenter sdfWitness.config.minCellWidth ![4, 0, 0]) q := by
    intro q hq
    rw [hw] at hq ⊢
    rw [pointDist_eq]
    refine lt_of_lt_of_le ?_ (vecNorm_ge _ 0)
    have h0 := (hq 0).1
    norm_num at h0
    norm_num
    rw [abs_of_neg (by linarith)]
    linarith
  have hnear : ∀ r : DenseBlockHash 3 4 ℝ, SdfOk (fun j => IsClass (OccClassifier.mk 0).threshold (sdfWitness.getCellValue j)) (3 / 5) sdfWitness.config.minCellWidth
      r.getValueOrDefault → r.getValueOrDefault ![6, 0, 0] < 3 / 5 := by
    intro r hr
    have h := hr.surface ![6, 0, 0] hfree ⟨![5, 0, 0], hocc5, by unfold CellsTouch; decide⟩ ![5, 0, 0] ![6, 1 / 2, 1 / 2] hocc5 (by
      rw [hw]
      intro i
      fin_cases i <;> norm_num)
    refine lt_of_le_of_lt h ?_
    rw [hw, pointDist_eq]
    unfold vecNorm
    norm_num
    rw [Real.sqrt_lt' (by norm_num), show (![6, 0, 0] : Index 3) 2 = 0 from rfl, show (![6, 1 / 2, 1 / 2] : Fin 3 → ℝ) 2 = 1 / 2 from rfl]
    norm_num
  refine ⟨3 / 5, ⟨0⟩, sdfWitness, ![4, 0, 0], hD, sdfWitness_reachable, hocc, ?_, ?_⟩
  · obtain ⟨r, ⟨N, h1⟩, h2, h3, _⟩ := QuasiSdf.generate_spec (3 / 5) hD ⟨0⟩ sdfWitness sdfWitness_reachable sdfWitness_reachable.width
    obtain ⟨r', h1', h4, _⟩ := C49_quasi_partial (3 / 5) hD ⟨0⟩ sdfWitness sdfWitness_reachable
    cases generates_unique ⟨N, h1⟩ h1'
    refine ⟨r, N, h1, stored_of_block ![6, 0, 0] _ (by rw [h2]; exact (hnear r h4).ne) (by decide), ?_⟩
    rw [C49_quasi_deep_obstacle (3 / 5) hD ⟨0⟩ sdfWitness sdfWitness_reachable _ hocc
      (fun k q hk hq => by rw [sdfWitness_free k hk] at hq; exact hdist q hq) r ⟨N, h1⟩]
    exact hD
  · have hfar := sdfWitness_far (3 / 5) (by norm_num)
    obtain ⟨r, ⟨N, h1⟩, h2, _⟩ := FullSdf.generate_spec (3 / 5) hD ⟨0⟩ sdfWitness sdfWitness_reachable sdfWitness_reachable.width
      (fun j hj => hfar j fun h => hj ((sdfClass_iff _ ⟨0⟩ j _).2 h))
    obtain ⟨r', h1', h4, _⟩ := C49_full_partial (3 / 5) hD ⟨0⟩ sdfWitness sdfWitness_reachable hfar
    cases generates_unique ⟨N, h1⟩ h1'
    refine ⟨r, N, h1, stored_of_block ![6, 0, 0] _ (by rw [h2]; exact (hnear r h4).ne) (by decide), ?_⟩
    rw [C49_full_deep_obstacle (3 / 5) hD ⟨0⟩ sdfWitness sdfWitness_reachable hfar _ hocc
      (fun k hk => by
        rw [sdfWitness_free k hk]
        exact ⟨by unfold CellsTouch; decide, hdist⟩) r ⟨N, h1⟩]
    exact hD

end Wavemap
