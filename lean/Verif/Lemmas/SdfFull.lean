import Verif.Lemmas.SdfQuasi
/-!
# Lemmas on the full Euclidean generator
-/
namespace Wavemap
namespace FullSdf

/-! ## Distances -/

theorem minDistanceTo_touching (w : ℝ) (hw : 0 < w) (j k : Index 3) (h : ∀ i, |j i - k i| ≤ 1) :
    minDistanceTo j k w = 1 / 2 * w * indexNorm fun i => j i - k i := by
  unfold minDistanceTo indexNorm
  dsimp only
  rw [← vecNorm_mul _ (by positivity)]
  congr 1
  funext i
  have := h i
  rw [abs_le] at this
  have h3 : j i - k i = -1 ∨ j i - k i = 0 ∨ j i - k i = 1 := by omega
  rcases h3 with h3 | h3 | h3
  · have e : (j i : ℝ) = k i - 1 := by exact_mod_cast (by omega : j i = k i - 1)
    rw [h3, e, max_eq_right (by nlinarith), min_eq_left (by nlinarith)]
    push_cast; ring
  · have e : (j i : ℝ) = k i := by exact_mod_cast (by omega : j i = k i)
    rw [h3, e, max_eq_left (by nlinarith), min_eq_left (by nlinarith)]
    push_cast; ring
  · have e : (j i : ℝ) = k i + 1 := by exact_mod_cast (by omega : j i = k i + 1)
    rw [h3, e, max_eq_left (by nlinarith), min_eq_right (by nlinarith)]
    push_cast; ring

theorem minDistanceTo_pos (w : ℝ) (hw : 0 < w) (j k : Index 3) (h : j ≠ k) : 0 < minDistanceTo j k w := by
  obtain ⟨i, hi⟩ := Function.ne_iff.1 h
  unfold minDistanceTo
  refine lt_of_lt_of_le ?_ (vecNorm_ge _ i)
  rw [abs_pos]
  dsimp only
  rcases lt_or_gt_of_ne hi with h | h
  · have e : (j i : ℝ) + 1 ≤ k i := by exact_mod_cast h
    rw [max_eq_right (by nlinarith), min_eq_left (by nlinarith)]
    have : ((j i : ℝ) + 1 / 2) * w - k i * w < 0 := by nlinarith
    exact this.ne
  · have e : (k i : ℝ) + 1 ≤ j i := by exact_mod_cast h
    rw [max_eq_left (by nlinarith), min_eq_right (by nlinarith)]
    have : 0 < ((j i : ℝ) + 1 / 2) * w - (k i * w + w) := by nlinarith
    exact this.ne'

/-- `minDistanceTo` is the distance from the centre of one cell to the closest point of another. -/
theorem minDistanceTo_spec (w : ℝ) (hw : 0 < w) (j k : Index 3) :
    (∃ q : Fin 3 → ℝ, (∀ i, (k i : ℝ) * w ≤ q i ∧ q i ≤ ((k i : ℝ) + 1) * w) ∧
      vecNorm (fun i => ((j i : ℝ) + 1 / 2) * w - q i) = minDistanceTo j k w) ∧
    ∀ q : Fin 3 → ℝ, (∀ i, (k i : ℝ) * w ≤ q i ∧ q i ≤ ((k i : ℝ) + 1) * w) →
      minDistanceTo j k w ≤ vecNorm fun i => ((j i : ℝ) + 1 / 2) * w - q i := by
  refine ⟨⟨fun i => min (max (((j i : ℝ) + 1 / 2) * w) (k i * w)) (k i * w + w), fun i => ⟨?_, ?_⟩, rfl⟩, fun q hq => ?_⟩
  · exact le_min (le_max_right _ _) (by linarith)
  · exact (min_le_right _ _).trans (by linarith)
  · unfold minDistanceTo
    refine vecNorm_mono _ _ fun i => ?_
    obtain ⟨h1, h2⟩ := hq i
    dsimp only
    have e : ((k i : ℝ) + 1) * w = k i * w + w := by ring
    rw [e] at h2
    generalize ((j i : ℝ) + 1 / 2) * w = c at *
    generalize (k i : ℝ) * w = a at *
    rcases le_total c a with h | h
    · rw [max_eq_right h, min_eq_left (by linarith), abs_of_nonpos (by linarith), abs_of_nonpos (by linarith)]
      linarith
    · rw [max_eq_left h]
      rcases le_total c (a + w) with h' | h'
      · rw [min_eq_left h', sub_self, abs_zero]; exact abs_nonneg _
      · rw [min_eq_right h', abs_of_nonneg (by linarith), abs_of_nonneg (by linarith)]
        linarith

/-- Cells next to an observed cell are farther than the maximum distance from the uninitialised parent. -/
theorem minDistanceTo_uninitialized (D w : ℝ) (hw : 0 < w) (x o : Index 3) (ho : ∀ i, |o i| ≤ 1) (hD : 0 < D)
    (hx : ∃ i, D ≤ w * (2147483645 - x i)) : D ≤ minDistanceTo (fun i => x i + o i) uninitializedParent w := by
  obtain ⟨i, hi⟩ := hx
  unfold minDistanceTo
  refine le_trans ?_ (vecNorm_ge _ i)
  dsimp only
  have h1 := ho i
  rw [abs_le] at h1
  have h2 : ((x i + o i : Int) : ℝ) ≤ x i + 1 := by exact_mod_cast (by omega : x i + o i ≤ x i + 1)
  have h3 : ((uninitializedParent i : Int) : ℝ) = 2147483647 := by norm_num [uninitializedParent]
  rw [h3]
  have h4 : (((x i + o i : Int) : ℝ) + 1 / 2) * w ≤ 2147483647 * w - D := by nlinarith
  rw [max_eq_right (by linarith), min_eq_left (by linarith), abs_of_nonpos (by linarith)]
  linarith

/-! ## Invariant -/

/-- What is known about a cell whose parent is set. -/
def CellOk (cls : Index 3 → OccClass) (D w : ℝ) (j : Index 3) (x : VectorDistance) : Prop :=
  (cls j = .free ∧ cls x.parent = .occupied ∧ x.distance = minDistanceTo j x.parent w ∧ x.distance < D) ∨
  (cls j = .occupied ∧ cls x.parent = .free ∧ x.distance = -minDistanceTo j x.parent w ∧ -D < x.distance)

/-- What is known about a cell whose parent is not set. -/
def CellUnset (cls : Index 3 → OccClass) (D : ℝ) (j : Index 3) (x : VectorDistance) : Prop :=
  x.parent = uninitializedParent ∧
    (x.distance = D ∨ (x.distance = -D ∧ cls j = .occupied ∧ ∃ k, cls k = .free ∧ ∀ i, |j i - k i| ≤ 1))

/-- How often a queued cell can lead to further cells being queued. -/
def weight (cls : Index 3 → OccClass) (j : Index 3) : Nat := if cls j = .free then 27 else 1

def pot (cls : Index 3 → OccClass) (f : Index 3 → VectorDistance) (j : Index 3) : Nat :=
  if (f j).parent = uninitializedParent then weight cls j else 0

structure Inv (cls : Index 3 → OccClass) (D w : ℝ) (S : Finset (Index 3)) (n : Nat) (s : SdfState VectorDistance) : Prop where
  dv : s.sdf.defaultValue = ⟨uninitializedParent, D⟩
  wf : s.sdf.Wf
  queue : ∃ L, s.queue.Holds L ∧ (∀ x ∈ L, cls x ≠ .unobserved) ∧ (L.map (weight cls)).sum + ∑ j ∈ S, pot cls s.sdf.getValueOrDefault j ≤ n
  cell : ∀ j, CellUnset cls D j (s.sdf.getValueOrDefault j) ∨
    ((s.sdf.getValueOrDefault j).parent ≠ uninitializedParent ∧ CellOk cls D w j (s.sdf.getValueOrDefault j))

/-- The observed cells are far away from the index that stands for "no parent". -/
def Far (cls : Index 3 → OccClass) (D w : ℝ) : Prop := ∀ j, cls j ≠ .unobserved → ∃ i, D ≤ w * (2147483645 - j i)

theorem Far.ne {cls : Index 3 → OccClass} {D w : ℝ} (h : Far cls D w) (hw : 0 < w) (hD : 0 < D) (j : Index 3) (hj : cls j ≠ .unobserved) :
    j ≠ uninitializedParent := by
  rintro rfl
  obtain ⟨i, hi⟩ := h _ hj
  norm_num [uninitializedParent] at hi
  nlinarith

theorem CellOk.pos {cls : Index 3 → OccClass} {D w : ℝ} (hw : 0 < w) {j : Index 3} {x : VectorDistance} (h : CellOk cls D w j x) :
    (cls j = .free → 0 < x.distance) ∧ (cls j = .occupied → x.distance < 0) := by
  have hne : j ≠ x.parent := by
    rintro he
    rcases h with ⟨h1, h2, _⟩ | ⟨h1, h2, _⟩ <;> rw [← he, h1] at h2 <;> cases h2
  have := minDistanceTo_pos w hw j x.parent hne
  rcases h with ⟨h1, h2, h3, _⟩ | ⟨h1, h2, h3, _⟩ <;> rw [h1, h3]
  · exact ⟨fun _ => this, (fun h => by cases h)⟩
  · exact ⟨(fun h => by cases h), fun _ => by linarith⟩

variable {occ : Index 3 → ℚ} {cl : OccClassifier} {D w : ℝ} {S : Finset (Index 3)}

theorem sum_write (cls : Index 3 → OccClass) (f : Index 3 → VectorDistance) (x : VectorDistance) (j : Index 3) (hj : j ∈ S) :
    (∑ i ∈ S, pot cls (fun i => if i = j then x else f i) i) + pot cls f j
      = (∑ i ∈ S, pot cls f i) + pot cls (fun i => if i = j then x else f i) j := by
  rw [← Finset.add_sum_erase S (pot cls f) hj, ← Finset.add_sum_erase S (pot cls fun i => if i = j then x else f i) hj]
  have : ∑ i ∈ S.erase j, pot cls (fun i => if i = j then x else f i) i = ∑ i ∈ S.erase j, pot cls f i := by
    apply Finset.sum_congr rfl
    intro i hi
    unfold pot
    simp only [if_neg (Finset.ne_of_mem_erase hi)]
  rw [this]
  omega

theorem updateValue_wf {m : DenseBlockHash 3 4 VectorDistance} (h : m.Wf) (j : Index 3) (f : VectorDistance → VectorDistance) :
    (m.updateValue j f).Wf := h.run (.update j f)

theorem seedCell_spec (hw : 0 < w) (hD : 0 < D) (hF : Far (fun j => classOf cl.threshold (occ j)) D w) (n : NdtreeIndex 3)
    (hn : ∀ k, NodeRegion n k → classOf cl.threshold (occ k) = .occupied) (j : Index 3) (hj : Padded n j) (s : SdfState VectorDistance)
    (hs : ∃ N, Inv (fun j => classOf cl.threshold (occ j)) D w S N s) :
    ∃ s', seedCell occ cl w (nodeIndexToMinCornerIndex n) (nodeIndexToMaxCornerIndex n) s j = some s' ∧
      (∃ N, Inv (fun j => classOf cl.threshold (occ j)) D w S N s') ∧
      (∀ i, (s'.sdf.getValueOrDefault i).distance ≤ (s.sdf.getValueOrDefault i).distance) ∧
      (classOf cl.threshold (occ j) = .free → ∀ k, NodeRegion n k → (∀ i, |j i - k i| ≤ 1) →
        (s'.sdf.getValueOrDefault j).distance ≤ 1 / 2 * w * indexNorm fun i => j i - k i) := by
  obtain ⟨N, hI⟩ := hs
  obtain ⟨hr, h1, h2, h3⟩ := clamp_padded n j hj
  unfold seedCell
  dsimp only
  generalize nearestInnerIndex (nodeIndexToMinCornerIndex n) (nodeIndexToMaxCornerIndex n) j = inner at *
  by_cases hin : j = inner
  · rw [if_pos hin]
    refine ⟨s, rfl, ⟨N, hI⟩, fun i => le_rfl, fun hf => ?_⟩
    have := hn j (h2.1 hin)
    rw [this] at hf; cases hf
  rw [if_neg hin]
  by_cases hf : classOf cl.threshold (occ j) = .free
  swap
  · rw [if_pos (by rw [(is_class cl _).1]; simpa using hf)]
    exact ⟨s, rfl, ⟨N, hI⟩, fun i => le_rfl, fun h => absurd h hf⟩
  rw [if_neg (by rw [(is_class cl _).1]; simpa using hf)]
  have hpos := minDistanceTo_pos w hw j inner hin
  have hle : ∀ k, NodeRegion n k → minDistanceTo j inner w ≤ 1 / 2 * w * indexNorm fun i => j i - k i := by
    intro k hk
    rw [minDistanceTo_touching w hw j inner h1]
    exact mul_le_mul_of_nonneg_left (indexNorm_mono _ _ (h3 k hk)) (by positivity)
  have hinner : classOf cl.threshold (occ inner) = .occupied := hn inner hr
  have hiU : inner ≠ uninitializedParent := hF.ne hw hD inner (by rw [hinner]; decide)
  generalize hd : minDistanceTo j inner w = d at *
  have hcell : (if d < (s.sdf.getValueOrDefault j).distance then (⟨inner, d⟩ : VectorDistance) else s.sdf.getValueOrDefault j) = ⟨inner, d⟩ ∧ d < D ∨
      (if d < (s.sdf.getValueOrDefault j).distance then (⟨inner, d⟩ : VectorDistance) else s.sdf.getValueOrDefault j) = s.sdf.getValueOrDefault j := by
    split
    · next h =>
      left
      refine ⟨rfl, lt_of_lt_of_le h ?_⟩
      rcases hI.cell j with ⟨_, h4 | ⟨_, h4, _⟩⟩ | ⟨_, ⟨_, _, _, h4⟩ | ⟨h4, _⟩⟩
      · exact h4.le
      · dsimp only at h4; rw [hf] at h4; cases h4
      · exact h4.le
      · dsimp only at h4; rw [hf] at h4; cases h4
    · exact Or.inr rfl
  have hmono : (if d < (s.sdf.getValueOrDefault j).distance then (⟨inner, d⟩ : VectorDistance) else s.sdf.getValueOrDefault j).distance
      ≤ (s.sdf.getValueOrDefault j).distance ∧
      (if d < (s.sdf.getValueOrDefault j).distance then (⟨inner, d⟩ : VectorDistance) else s.sdf.getValueOrDefault j).distance ≤ d := by
    split
    · next h => exact ⟨h.le, le_rfl⟩
    · next h => exact ⟨le_rfl, not_lt.1 h⟩
  generalize (if d < (s.sdf.getValueOrDefault j).distance then (⟨inner, d⟩ : VectorDistance) else s.sdf.getValueOrDefault j) = X at *
  have hval : ∀ i, (s.sdf.updateValue j fun _ => X).getValueOrDefault i = if i = j then X else s.sdf.getValueOrDefault i := fun i =>
    DenseBlockHash.getValueOrDefault_updateValue _ _ _ _
  have hcell' : ∀ i, CellUnset (fun j => classOf cl.threshold (occ j)) D i (if i = j then X else s.sdf.getValueOrDefault i) ∨
      ((if i = j then X else s.sdf.getValueOrDefault i).parent ≠ uninitializedParent ∧
        CellOk (fun j => classOf cl.threshold (occ j)) D w i (if i = j then X else s.sdf.getValueOrDefault i)) := by
    intro i
    by_cases hi : i = j
    swap
    · rw [if_neg hi]; exact hI.cell i
    subst hi
    rw [if_pos rfl]
    rcases hcell with ⟨h4, h5⟩ | h4 <;> rw [h4]
    · exact Or.inr ⟨hiU, Or.inl ⟨hf, hinner, hd.symm, h5⟩⟩
    · exact hI.cell i
  have hmono' : ∀ i, (if i = j then X else s.sdf.getValueOrDefault i).distance ≤ (s.sdf.getValueOrDefault i).distance := by
    intro i
    split
    · next h => rw [h]; exact hmono.1
    · exact le_rfl
  obtain ⟨L, hL, hobs, hm⟩ := hI.queue
  split
  · obtain ⟨q', hq, hq'⟩ := hL.push d j
    rw [hq]
    refine ⟨_, rfl, ⟨_, hI.dv, updateValue_wf hI.wf _ _, ⟨_, hq', fun x hx => ?_, le_rfl⟩, fun i => ?_⟩, fun i => ?_, fun _ k hk _ => ?_⟩
    · rcases List.mem_cons.1 hx with rfl | hx
      · rw [hf]; decide
      · exact hobs x hx
    · dsimp only; rw [hval]; exact hcell' i
    · dsimp only; rw [hval]; exact hmono' i
    · dsimp only; rw [hval, if_pos rfl]; exact hmono.2.trans (hle k hk)
  · refine ⟨_, rfl, ⟨_, hI.dv, updateValue_wf hI.wf _ _, ⟨_, hL, hobs, le_rfl⟩, fun i => ?_⟩, fun i => ?_, fun _ k hk _ => ?_⟩
    · dsimp only; rw [hval]; exact hcell' i
    · dsimp only; rw [hval]; exact hmono' i
    · dsimp only; rw [hval, if_pos rfl]; exact hmono.2.trans (hle k hk)

theorem store_spec {cls : Index 3 → OccClass} (hw : 0 < w) (hD : 0 < D) (hF : Far cls D w) (hS : ∀ j, cls j ≠ .unobserved → j ∈ S) {N : Nat}
    {s : SdfState VectorDistance} (hI : Inv cls D w S N s) (hB : QuasiSdf.Bound cls w fun j => (s.sdf.getValueOrDefault j).distance)
    (j : Index 3) (v : VectorDistance) (p : Index 3) (u : Prop) [Decidable u] (ex : Nat)
    (hu : u ↔ (s.sdf.getValueOrDefault j).parent = uninitializedParent)
    (hv : (cls j = .free ∧ 0 < v.distance ∧ v.distance ≤ D ∧ v = s.sdf.getValueOrDefault j ∧ cls p = .occupied) ∨
      (cls j = .occupied ∧ v.distance < 0 ∧ -D ≤ v.distance ∧ cls p = .free ∧
        (v = s.sdf.getValueOrDefault j ∨ (u ∧ v = ⟨uninitializedParent, -D⟩))))
    (hex : u → minDistanceTo j p w < |v.distance| ∨
      (1 ≤ ex ∧ cls j = .occupied ∧ v = ⟨uninitializedParent, -D⟩ ∧ ∃ k, cls k = .free ∧ ∀ i, |j i - k i| ≤ 1)) :
    ∃ s', store s j v (minDistanceTo j p w) p u = some s' ∧ Inv cls D w S (N + ex) s' ∧
      QuasiSdf.Bound cls w fun j => (s'.sdf.getValueOrDefault j).distance := by
  have hobs : cls j ≠ .unobserved := by rcases hv with h | h <;> rw [h.1] <;> decide
  have hp : p ≠ uninitializedParent := hF.ne hw hD p (by
    rcases hv with h | h
    · rw [h.2.2.2.2]; decide
    · rw [h.2.2.2.1]; decide)
  have hjS := hS j hobs
  have hc : 0 < minDistanceTo j p w := minDistanceTo_pos w hw j p (by
    rintro rfl
    rcases hv with h | h
    · have := h.2.2.2.2; rw [h.1] at this; cases this
    · have := h.2.2.2.1; rw [h.1] at this; cases this)
  generalize hcE : minDistanceTo j p w = c at *
  -- the new value: either the parent is now set, or nothing changes except possibly the sign of an unset cell
  have hnew : ∀ X, X = (if c < |v.distance| then (⟨p, copysign c v.distance⟩ : VectorDistance) else v) →
      (X.parent ≠ uninitializedParent ∧ CellOk cls D w j X ∧ (cls j = .free → X.distance ≤ (s.sdf.getValueOrDefault j).distance)) ∨
      (¬ u ∧ X = s.sdf.getValueOrDefault j) ∨
      (u ∧ 1 ≤ ex ∧ cls j = .occupied ∧ X.parent = uninitializedParent ∧ CellUnset cls D j X) := by
    rintro X rfl
    split
    · next hlt =>
      left
      refine ⟨hp, ?_, ?_⟩
      · rcases hv with ⟨h1, h2, h3, h4, h5⟩ | ⟨h1, h2, h3, h4, h5⟩
        · left
          rw [abs_of_pos h2] at hlt
          have : copysign c v.distance = c := if_neg (not_lt.2 h2.le)
          rw [this]
          exact ⟨h1, h5, hcE.symm, by show c < D; linarith⟩
        · right
          rw [abs_of_neg h2] at hlt
          have : copysign c v.distance = -c := if_pos h2
          rw [this]
          exact ⟨h1, h4, by rw [hcE], by show -D < -c; linarith⟩
      · intro hfree
        rcases hv with ⟨h1, h2, h3, h4, h5⟩ | ⟨h1, _⟩
        · rw [abs_of_pos h2] at hlt
          have : copysign c v.distance = c := if_neg (not_lt.2 h2.le)
          rw [this, ← h4]; exact hlt.le
        · rw [hfree] at h1; cases h1
    · next hlt =>
      right
      by_cases huu : u
      · right
        rcases hex huu with h | ⟨h1, h2, h3, h4⟩
        · exact absurd h hlt
        · exact ⟨huu, h1, h2, by rw [h3], by rw [h3], Or.inr ⟨by rw [h3], h2, h4⟩⟩
      · left
        refine ⟨huu, ?_⟩
        rcases hv with ⟨_, _, _, h, _⟩ | ⟨_, _, _, _, h | h⟩
        · exact h
        · exact h
        · exact absurd h.1 huu
  unfold store
  dsimp only
  generalize hX : (if c < |v.distance| then (⟨p, copysign c v.distance⟩ : VectorDistance) else v) = X at *
  have hnew := hnew X rfl
  have hval : (s.sdf.updateValue j fun _ => X).getValueOrDefault = fun i => if i = j then X else s.sdf.getValueOrDefault i :=
    funext fun i => DenseBlockHash.getValueOrDefault_updateValue _ _ _ _
  have hcell : ∀ i, CellUnset cls D i (if i = j then X else s.sdf.getValueOrDefault i) ∨
      ((if i = j then X else s.sdf.getValueOrDefault i).parent ≠ uninitializedParent ∧
        CellOk cls D w i (if i = j then X else s.sdf.getValueOrDefault i)) := by
    intro i
    by_cases hi : i = j
    swap
    · rw [if_neg hi]; exact hI.cell i
    subst hi
    rw [if_pos rfl]
    rcases hnew with h | h | h
    · exact Or.inr ⟨h.1, h.2.1⟩
    · rw [h.2]; exact hI.cell i
    · exact Or.inl h.2.2.2.2
  have hB' : QuasiSdf.Bound cls w fun i => (if i = j then X else s.sdf.getValueOrDefault i).distance := by
    intro a b ha hb hab
    dsimp only
    split
    · next h =>
      subst h
      rcases hnew with h | h | h
      · exact (h.2.2 ha).trans (hB a b ha hb hab)
      · rw [h.2]; exact hB a b ha hb hab
      · have := h.2.2.1; rw [ha] at this; cases this
    · exact hB a b ha hb hab
  obtain ⟨L, hL, hLo, hm⟩ := hI.queue
  have hsum := sum_write cls s.sdf.getValueOrDefault X j hjS
  have hpotX : pot cls (fun i => if i = j then X else s.sdf.getValueOrDefault i) j =
      if X.parent = uninitializedParent then weight cls j else 0 := by unfold pot; simp only [if_true]
  rw [hpotX] at hsum
  have hpot : pot cls s.sdf.getValueOrDefault j = if u then weight cls j else 0 := by unfold pot; simp only [hu]
  rw [hpot] at hsum
  by_cases huv : u
  · rw [if_pos huv]
    rw [if_pos huv] at hsum
    obtain ⟨q', hq, hq'⟩ := hL.push c j
    rw [hq]
    refine ⟨_, rfl, ⟨hI.dv, updateValue_wf hI.wf _ _, ⟨_, hq', ?_, ?_⟩, ?_⟩, ?_⟩
    · intro x hx
      rcases List.mem_cons.1 hx with rfl | hx
      · exact hobs
      · exact hLo x hx
    · dsimp only
      rw [hval, List.map_cons, List.sum_cons]
      rcases hnew with h | h | h
      · rw [if_neg h.1] at hsum; omega
      · exact absurd huv h.1
      · rw [if_pos h.2.2.2.1] at hsum
        have : weight cls j = 1 := by unfold weight; rw [h.2.2.1]; rfl
        omega
    · dsimp only; rw [hval]; exact hcell
    · dsimp only; rw [hval]; exact hB'
  · rw [if_neg huv]
    rw [if_neg huv] at hsum
    refine ⟨_, rfl, ⟨hI.dv, updateValue_wf hI.wf _ _, ⟨_, hL, hLo, ?_⟩, ?_⟩, ?_⟩
    · dsimp only
      rw [hval]
      rcases hnew with h | h | h
      · rw [if_neg h.1] at hsum; omega
      · rw [h.2, if_neg (fun hh => huv (hu.2 hh))] at hsum; rw [h.2]; omega
      · exact absurd h.1 huv
    · dsimp only; rw [hval]; exact hcell
    · dsimp only; rw [hval]; exact hB'

/-- Writing the value a cell already has changes nothing but the allocation. -/
theorem same_spec {cls : Index 3 → OccClass} {N : Nat} {s : SdfState VectorDistance} (hI : Inv cls D w S N s)
    (hB : QuasiSdf.Bound cls w fun j => (s.sdf.getValueOrDefault j).distance) (j : Index 3) (f : VectorDistance → VectorDistance)
    (hf : f (s.sdf.getValueOrDefault j) = s.sdf.getValueOrDefault j) (ex : Nat) :
    Inv cls D w S (N + ex) { s with sdf := s.sdf.updateValue j f } ∧
      QuasiSdf.Bound cls w fun i => (({ s with sdf := s.sdf.updateValue j f } : SdfState VectorDistance).sdf.getValueOrDefault i).distance := by
  have hval : (s.sdf.updateValue j f).getValueOrDefault = s.sdf.getValueOrDefault := funext fun i => by
    rw [DenseBlockHash.getValueOrDefault_updateValue]
    split
    · next h => rw [h, hf]
    · rfl
  obtain ⟨L, hL, hLo, hm⟩ := hI.queue
  refine ⟨⟨hI.dv, updateValue_wf hI.wf _ _, ⟨L, hL, hLo, ?_⟩, ?_⟩, ?_⟩
  · dsimp only; rw [hval]; omega
  · dsimp only; rw [hval]; exact hI.cell
  · dsimp only; rw [hval]; exact hB

theorem Inv.mono {cls : Index 3 → OccClass} {N N' : Nat} {s : SdfState VectorDistance} (hI : Inv cls D w S N s) (h : N ≤ N') :
    Inv cls D w S N' s := by
  obtain ⟨L, hL, hLo, hm⟩ := hI.queue
  exact ⟨hI.dv, hI.wf, ⟨L, hL, hLo, hm.trans h⟩, hI.cell⟩

theorem visit_spec (hw : 0 < w) (hD : 0 < D) (hF : Far (fun j => classOf cl.threshold (occ j)) D w)
    (hS : ∀ j, classOf cl.threshold (occ j) ≠ .unobserved → j ∈ S) {N : Nat} {s : SdfState VectorDistance}
    (hI : Inv (fun j => classOf cl.threshold (occ j)) D w S N s)
    (hB : QuasiSdf.Bound (fun j => classOf cl.threshold (occ j)) w fun j => (s.sdf.getValueOrDefault j).distance) (x : Index 3) (v : VectorDistance)
    (hxo : classOf cl.threshold (occ x) ≠ .unobserved)
    (hv : CellUnset (fun j => classOf cl.threshold (occ j)) D x v ∨
      (v.parent ≠ uninitializedParent ∧ CellOk (fun j => classOf cl.threshold (occ j)) D w x v))
    (hvB : ∀ k, classOf cl.threshold (occ x) = .free → classOf cl.threshold (occ k) = .occupied → (∀ i, |x i - k i| ≤ 1) →
      v.distance ≤ 1 / 2 * w * indexNorm fun i => x i - k i)
    (o : Index 3) (ho : ∀ i, |o i| ≤ 1) (hne : o ≠ fun _ => 0) :
    ∃ s', visit occ cl D w x v s o = some s' ∧
      Inv (fun j => classOf cl.threshold (occ j)) D w S (N + if classOf cl.threshold (occ x) = .free then 1 else 0) s' ∧
      QuasiSdf.Bound (fun j => classOf cl.threshold (occ j)) w fun j => (s'.sdf.getValueOrDefault j).distance := by
  unfold visit
  dsimp only
  have hpar : D ≤ minDistanceTo (fun i => x i + o i) uninitializedParent w :=
    minDistanceTo_uninitialized D w hw x o ho hD (hF x hxo)
  by_cases hskip : D ≤ minDistanceTo (fun i => x i + o i) v.parent w
  · rw [if_pos hskip]; exact ⟨s, rfl, hI.mono (by omega), hB⟩
  rw [if_neg hskip]
  rw [not_le] at hskip
  -- the opened cell has a parent
  have hvok : CellOk (fun j => classOf cl.threshold (occ j)) D w x v := by
    rcases hv with h | h
    · rw [h.1] at hskip; linarith
    · exact h.2
  have hvpos := hvok.pos hw
  clear hv hpar
  have htouch : ∀ i, |x i - (x i + o i)| ≤ 1 := fun i => by rw [show x i - (x i + o i) = -o i by omega, abs_neg]; exact ho i
  have htouch' : ∀ i, |(x i + o i) - x i| ≤ 1 := fun i => by rw [show x i + o i - x i = o i by omega]; exact ho i
  have hnorm : (indexNorm fun i => x i - (x i + o i)) = indexNorm o := by
    rw [← indexNorm_neg o]; congr 1; funext i; omega
  have hhalf : (1 / 2 * w * indexNorm o) ≤ halfMaxNeighborDistanceOffset w := by
    unfold halfMaxNeighborDistanceOffset
    have := mul_le_mul_of_nonneg_left (indexNorm_le_sqrt3 o ho) hw.le
    linarith
  have hvB' : classOf cl.threshold (occ x) = .free → classOf cl.threshold (occ fun i => x i + o i) = .occupied →
      v.distance ≤ halfMaxNeighborDistanceOffset w := by
    intro h1 h2
    have := hvB (fun i => x i + o i) h1 h2 htouch
    rw [hnorm] at this
    linarith
  clear hvB htouch hnorm hhalf
  have htouchN : ∀ i, |(fun i => x i + o i) i - x i| ≤ 1 := htouch'
  generalize hn : (fun i => x i + o i) = n at *
  have hdv : s.sdf.defaultValue.parent = uninitializedParent ∧ s.sdf.defaultValue.distance = D := by rw [hI.dv]; exact ⟨rfl, rfl⟩
  rw [hdv.1, hdv.2]
  by_cases hun : (s.sdf.getValueOrDefault n).parent = uninitializedParent
  · -- the neighbour has no parent
    have hst : CellUnset (fun j => classOf cl.threshold (occ j)) D n (s.sdf.getValueOrDefault n) := by
      rcases hI.cell n with h | h
      · exact h
      · exact absurd hun h.1
    cases hcn : classOf cl.threshold (occ n) with
    | unobserved =>
      rw [if_pos ⟨hun, by rw [(is_class cl _).2.2, hcn]; rfl⟩]
      obtain ⟨h1, h2⟩ := same_spec hI hB n id rfl (if classOf cl.threshold (occ x) = .free then 1 else 0)
      exact ⟨_, rfl, h1, h2⟩
    | occupied =>
      have hNV : (if (s.sdf.getValueOrDefault n).parent = uninitializedParent ∧ cl.is (occ n) OccId.occupied.toMask = true then
          (⟨(s.sdf.getValueOrDefault n).parent, -D⟩ : VectorDistance) else s.sdf.getValueOrDefault n) = ⟨uninitializedParent, -D⟩ := by
        rw [if_pos ⟨hun, by rw [(is_class cl _).2.1, hcn]; rfl⟩, hun]
      rw [if_neg (by rw [(is_class cl _).2.2, hcn]; simp), hNV]
      have hneg : -D < 0 := by linarith
      rcases hvok with ⟨hx, hvp, hvd, hvD⟩ | ⟨hx, hvp, hvd, hvD⟩
      · have hv0 := hvpos.1 hx
        rw [if_pos (by rw [decide_eq_true hneg, decide_eq_false (not_lt.2 hv0.le)]; decide), if_pos hneg]
        have hle := hvB' hx hcn
        rw [abs_of_pos hv0, if_pos hle, if_pos hx]
        refine store_spec hw hD hF hS hI hB n _ x _ 1 Iff.rfl (Or.inr ⟨hcn, hneg, le_rfl, hx, Or.inr ⟨hun, rfl⟩⟩) ?_
        intro _
        exact Or.inr ⟨le_rfl, hcn, rfl, x, hx, htouchN⟩
      · have hv0 := hvpos.2 hx
        rw [if_neg (by rw [decide_eq_true hneg, decide_eq_true hv0]; decide)]
        refine store_spec hw hD hF hS hI hB n _ v.parent _ _ Iff.rfl (Or.inr ⟨hcn, hneg, le_rfl, hvp, Or.inr ⟨hun, rfl⟩⟩) ?_
        intro _
        left
        show _ < |-D|
        rw [abs_neg, abs_of_pos hD]; exact hskip
    | free =>
      have hnD : (s.sdf.getValueOrDefault n).distance = D := by
        rcases hst.2 with h | ⟨_, h, _⟩
        · exact h
        · dsimp only at h; rw [hcn] at h; cases h
      have hNV : (if (s.sdf.getValueOrDefault n).parent = uninitializedParent ∧ cl.is (occ n) OccId.occupied.toMask = true then
          (⟨(s.sdf.getValueOrDefault n).parent, -D⟩ : VectorDistance) else s.sdf.getValueOrDefault n) = s.sdf.getValueOrDefault n := by
        rw [if_neg (by rw [(is_class cl _).2.1, hcn]; simp)]
      rw [if_neg (by rw [(is_class cl _).2.2, hcn]; simp), hNV, hnD]
      rcases hvok with ⟨hx, hvp, hvd, hvD⟩ | ⟨hx, hvp, hvd, hvD⟩
      · have hv0 := hvpos.1 hx
        rw [if_neg (by rw [decide_eq_false (not_lt.2 hD.le), decide_eq_false (not_lt.2 hv0.le)]; decide)]
        refine store_spec hw hD hF hS hI hB n _ v.parent _ _ Iff.rfl (Or.inl ⟨hcn, by rw [hnD]; exact hD, hnD.le, rfl, hvp⟩) ?_
        intro _
        left
        rw [hnD, abs_of_pos hD]; exact hskip
      · have hv0 := hvpos.2 hx
        rw [if_pos (by rw [decide_eq_false (not_lt.2 hD.le), decide_eq_true hv0]; decide), if_neg (not_lt.2 hD.le)]
        obtain ⟨h1, h2⟩ := same_spec hI hB n (fun _ => s.sdf.getValueOrDefault n) rfl (if classOf cl.threshold (occ x) = .free then 1 else 0)
        exact ⟨_, rfl, h1, h2⟩
  · -- the neighbour has a parent
    have hNV : (if (s.sdf.getValueOrDefault n).parent = uninitializedParent ∧ cl.is (occ n) OccId.occupied.toMask = true then
        (⟨(s.sdf.getValueOrDefault n).parent, -D⟩ : VectorDistance) else s.sdf.getValueOrDefault n) = s.sdf.getValueOrDefault n :=
      if_neg (fun h => hun h.1)
    rw [if_neg (fun h => hun h.1), hNV]
    have hnok : CellOk (fun j => classOf cl.threshold (occ j)) D w n (s.sdf.getValueOrDefault n) := by
      rcases hI.cell n with h | h
      · exact absurd h.1 hun
      · exact h.2
    have hnpos := hnok.pos hw
    rcases hnok with ⟨hcn, hnp, hnd, hnD⟩ | ⟨hcn, hnp, hnd, hnD⟩
    · have hn0 := hnpos.1 hcn
      rcases hvok with ⟨hx, hvp, hvd, hvD⟩ | ⟨hx, hvp, hvd, hvD⟩
      · have hv0 := hvpos.1 hx
        rw [if_neg (by rw [decide_eq_false (not_lt.2 hn0.le), decide_eq_false (not_lt.2 hv0.le)]; decide)]
        exact store_spec hw hD hF hS hI hB n _ v.parent _ _ Iff.rfl (Or.inl ⟨hcn, hn0, hnD.le, rfl, hvp⟩) fun h => absurd h hun
      · have hv0 := hvpos.2 hx
        rw [if_pos (by rw [decide_eq_false (not_lt.2 hn0.le), decide_eq_true hv0]; decide), if_neg (not_lt.2 hn0.le)]
        obtain ⟨h1, h2⟩ := same_spec hI hB n (fun _ => s.sdf.getValueOrDefault n) rfl (if classOf cl.threshold (occ x) = .free then 1 else 0)
        exact ⟨_, rfl, h1, h2⟩
    · have hn0 := hnpos.2 hcn
      rcases hvok with ⟨hx, hvp, hvd, hvD⟩ | ⟨hx, hvp, hvd, hvD⟩
      · have hv0 := hvpos.1 hx
        rw [if_pos (by rw [decide_eq_true hn0, decide_eq_false (not_lt.2 hv0.le)]; decide), if_pos hn0]
        have hle := hvB' hx hcn
        rw [abs_of_pos hv0, if_pos hle]
        exact store_spec hw hD hF hS hI hB n _ x _ _ Iff.rfl (Or.inr ⟨hcn, hn0, hnD.le, hx, Or.inl rfl⟩) fun h => absurd h hun
      · have hv0 := hvpos.2 hx
        rw [if_neg (by rw [decide_eq_true hn0, decide_eq_true hv0]; decide)]
        exact store_spec hw hD hF hS hI hB n _ v.parent _ _ Iff.rfl (Or.inr ⟨hcn, hn0, hnD.le, hvp, Or.inl rfl⟩) fun h => absurd h hun

theorem weight_sum_perm (cls : Index 3 → OccClass) {L L' : List (Index 3)} (h : L.Perm L') : (L.map (weight cls)).sum = (L'.map (weight cls)).sum :=
  (h.map _).sum_eq

/-- Opening the next cell of the queue. -/
theorem open_spec (hw : 0 < w) (hD : 0 < D) (hF : Far (fun j => classOf cl.threshold (occ j)) D w)
    (hS : ∀ j, classOf cl.threshold (occ j) ≠ .unobserved → j ∈ S) (offsets : List (Index 3))
    (hoff : ∀ o ∈ offsets, (∀ i, |o i| ≤ 1) ∧ o ≠ fun _ => 0) (hlen : offsets.length = 26) (N : Nat) (s : SdfState VectorDistance)
    (hI : Inv (fun j => classOf cl.threshold (occ j)) D w S N s ∧
      QuasiSdf.Bound (fun j => classOf cl.threshold (occ j)) w fun j => (s.sdf.getValueOrDefault j).distance)
    (he : s.queue.empty = false) :
    ∃ x q1 q2 s' N', s.queue.front = some (x, q1) ∧ q1.pop = some q2 ∧
      offsets.foldlM (visit occ cl D w x (s.sdf.getValueOrDefault x)) { s with queue := q2 } = some s' ∧ N' < N ∧
      Inv (fun j => classOf cl.threshold (occ j)) D w S N' s' ∧
      QuasiSdf.Bound (fun j => classOf cl.threshold (occ j)) w fun j => (s'.sdf.getValueOrDefault j).distance := by
  obtain ⟨hI, hB⟩ := hI
  obtain ⟨L, hL, hLo, hm⟩ := hI.queue
  have hne : L ≠ [] := fun h => by rw [hL.empty.2 h] at he; cases he
  obtain ⟨x, q1, q2, L', h1, h2, h3, h4⟩ := hL.next hne
  have hsum := weight_sum_perm (fun j => classOf cl.threshold (occ j)) h4
  rw [List.map_cons, List.sum_cons] at hsum
  have hxo : classOf cl.threshold (occ x) ≠ .unobserved := hLo x (h4.symm.subset (by simp))
  have key : ∀ (l : List (Index 3)), (∀ o ∈ l, (∀ i, |o i| ≤ 1) ∧ o ≠ fun _ => 0) → ∀ (M : Nat) (s1 : SdfState VectorDistance),
      Inv (fun j => classOf cl.threshold (occ j)) D w S M s1 →
      QuasiSdf.Bound (fun j => classOf cl.threshold (occ j)) w (fun j => (s1.sdf.getValueOrDefault j).distance) →
      ∃ s', l.foldlM (visit occ cl D w x (s.sdf.getValueOrDefault x)) s1 = some s' ∧
        Inv (fun j => classOf cl.threshold (occ j)) D w S (M + if classOf cl.threshold (occ x) = .free then l.length else 0) s' ∧
        QuasiSdf.Bound (fun j => classOf cl.threshold (occ j)) w fun j => (s'.sdf.getValueOrDefault j).distance := by
    intro l
    induction l with
    | nil => intro _ M s1 hI1 hB1; exact ⟨s1, rfl, hI1.mono (by omega), hB1⟩
    | cons o l ih =>
      intro hl M s1 hI1 hB1
      obtain ⟨s2, h5, h6, h7⟩ := visit_spec hw hD hF hS hI1 hB1 x (s.sdf.getValueOrDefault x) hxo (hI.cell x)
        (fun k hf hk ht => hB x k hf hk ht) o (hl o (by simp)).1 (hl o (by simp)).2
      obtain ⟨s3, h8, h9, h10⟩ := ih (fun o' ho' => hl o' (by simp [ho'])) _ s2 h6 h7
      refine ⟨s3, by rw [List.foldlM_cons, h5]; exact h8, h9.mono ?_, h10⟩
      rw [List.length_cons]
      split <;> omega
  obtain ⟨s', h5, h6, h7⟩ := key offsets hoff (N - weight (fun j => classOf cl.threshold (occ j)) x) { s with queue := q2 }
    ⟨hI.dv, hI.wf, ⟨L', h3, fun y hy => hLo y (h4.symm.subset (by simp [hy])), by dsimp only; omega⟩, hI.cell⟩ hB
  have hwt : weight (fun j => classOf cl.threshold (occ j)) x = if classOf cl.threshold (occ x) = .free then 27 else 1 := rfl
  refine ⟨x, q1, q2, s', N - 1, h1, h2, h5, by split at hwt <;> omega, h6.mono ?_, h7⟩
  rw [hlen]
  by_cases hfr : classOf cl.threshold (occ x) = .free
  · rw [if_pos hfr] at hwt ⊢; omega
  · rw [if_neg hfr] at hwt ⊢; omega

/-! ## The copy -/

theorem toHashedBlocks_value (D : ℝ) (f : DenseBlockHash 3 4 VectorDistance) (hf : f.Wf) (hd : f.defaultValue.distance = D) (j : Index 3) :
    (toHashedBlocks D f).getValueOrDefault j = (f.getValueOrDefault j).distance ∧ (toHashedBlocks D f).defaultValue = D := by
  classical
  have hdef : ∀ (l : List (Index 3 × VectorDistance)) (t : DenseBlockHash 3 4 ℝ),
      (l.foldl (fun sdf e => sdf.updateValue e.1 fun _ => e.2.distance) t).defaultValue = t.defaultValue := by
    intro l
    induction l with
    | nil => intro t; rfl
    | cons e l ih => intro t; rw [List.foldl_cons, ih]; rfl
  refine ⟨?_, hdef _ _⟩
  have gen : ∀ (l : List (Index 3 × VectorDistance)) (t : DenseBlockHash 3 4 ℝ),
      (l.foldl (fun sdf e => sdf.updateValue e.1 fun _ => e.2.distance) t).getValueOrDefault j =
        (l.filter fun e => decide (e.1 = j)).foldl (fun _ e => e.2.distance) (t.getValueOrDefault j) := by
    intro l
    induction l with
    | nil => intro t; rfl
    | cons e l ih =>
      intro t
      rw [List.foldl_cons, ih, DenseBlockHash.getValueOrDefault_updateValue]
      by_cases h : e.1 = j
      · rw [List.filter_cons_of_pos (by simpa using h), List.foldl_cons, if_pos h.symm]
      · rw [List.filter_cons_of_neg (by simpa using h), if_neg (fun h' => h h'.symm)]
  unfold toHashedBlocks
  rw [gen, C23_dense_block_hash_leaves (by decide) f hf j, DenseBlockHash.create_getValueOrDefault]
  split
  · rfl
  · next h =>
    rw [DenseBlockHash.getValueOrDefault_eq]
    have : f.getValue j = none := by
      unfold DenseBlockHash.hasValue at h
      simpa using h
    rw [this]; exact hd.symm

end FullSdf

theorem neighbor_offsets_26 : ∃ offsets, generateIndexOffsets 3 .anyDisjoint = some offsets ∧
    (∀ o ∈ offsets, (∀ i, |o i| ≤ 1) ∧ o ≠ fun _ => 0) ∧ offsets.length = 26 := by
  obtain ⟨L, h1, h2⟩ := neighbor_offsets
  obtain ⟨L', h1', -, -, h3⟩ := C48_offsets (d := 3) (by decide) .anyDisjoint
  rw [h1] at h1'
  cases h1'
  exact ⟨L, h1, h2, by rw [h3]; decide⟩

/-- Everything `FullSdf.generate` guarantees, in terms of the invariant. -/
theorem FullSdf.generate_spec (D : ℝ) (hD : 0 < D) (cl : OccClassifier) (m : HashedWaveletOctree) (hm : m.Reachable)
    (hw : (0 : ℝ) < m.config.minCellWidth) (hF : FullSdf.Far (sdfClass m cl) D m.config.minCellWidth) :
    ∃ r : DenseBlockHash 3 4 ℝ, (∃ N, ∀ fuel ≥ N, FullSdf.generate D cl m fuel = some r) ∧ r.defaultValue = D ∧
      ∃ f : DenseBlockHash 3 4 VectorDistance, (∀ j, r.getValueOrDefault j = (f.getValueOrDefault j).distance) ∧
      (∀ j, FullSdf.CellUnset (sdfClass m cl) D j (f.getValueOrDefault j) ∨
        FullSdf.CellOk (sdfClass m cl) D m.config.minCellWidth j (f.getValueOrDefault j)) ∧
      QuasiSdf.Bound (sdfClass m cl) m.config.minCellWidth r.getValueOrDefault := by
  obtain ⟨offsets, ho1, ho2, ho3⟩ := neighbor_offsets_26
  obtain ⟨S, hS⟩ := observed_finite hm cl
  obtain ⟨s1, ⟨N1, hN1⟩, ⟨N2, hP⟩, hQ⟩ := sdfSeed_spec cl (FullSdf.seedCell m.getCellValue cl m.config.minCellWidth)
    (fun s => ∃ N, FullSdf.Inv (sdfClass m cl) D m.config.minCellWidth S N s)
    (fun s s' => ∀ i, (s'.sdf.getValueOrDefault i).distance ≤ (s.sdf.getValueOrDefault i).distance)
    (fun n j s => sdfClass m cl j = .free → ∀ k, NodeRegion n k → (∀ i, |j i - k i| ≤ 1) →
        (s.sdf.getValueOrDefault j).distance ≤ 1 / 2 * m.config.minCellWidth * indexNorm fun i => j i - k i)
    (fun _ _ => le_rfl) (fun a b c h1 h2 i => (h2 i).trans (h1 i)) (fun n j s s' h1 h2 h3 k h4 h5 => (h1 j).trans (h2 h3 k h4 h5))
    m.forEachLeaf ⟨.create ⟨uninitializedParent, D⟩, sdfQueue D m.config.minCellWidth⟩
    ⟨_, rfl, List.nodup_nil, ⟨[], sdfQueue_holds D _ hD hw, by simp, le_rfl⟩, fun j => Or.inl (by
      rw [DenseBlockHash.create_getValueOrDefault]; exact ⟨rfl, Or.inl rfl⟩)⟩
    (fun e he ho j hj s hs => FullSdf.seedCell_spec hw hD hF e.1 (fun k hk => leaf_occupied hm cl e he ho k hk) j hj s hs)
  have hB : QuasiSdf.Bound (sdfClass m cl) m.config.minCellWidth fun j => (s1.sdf.getValueOrDefault j).distance := by
    intro j k hj hk hjk
    obtain ⟨e, he, heo, hr⟩ := occupied_leaf hm cl k hk
    refine hQ e he heo j (fun i => ?_) hj k hr hjk
    have h1 := (C03_corners_span_region e.1 k).2 hr i
    have h2 := hjk i
    rw [abs_le] at h2
    omega
  obtain ⟨s2, h3, N3, h4, h5⟩ := sdfPropagate_spec offsets (FullSdf.visit m.getCellValue cl D m.config.minCellWidth)
    (fun N s => FullSdf.Inv (sdfClass m cl) D m.config.minCellWidth S N s ∧
      QuasiSdf.Bound (sdfClass m cl) m.config.minCellWidth fun j => (s.sdf.getValueOrDefault j).distance)
    (fun N s hI he => FullSdf.open_spec hw hD hF hS offsets ho2 ho3 N s hI he) N2 s1 ⟨hP, hB⟩
  have hval := FullSdf.toHashedBlocks_value D s2.sdf h4.wf (by rw [h4.dv])
  refine ⟨FullSdf.toHashedBlocks D s2.sdf, ⟨max N1 N2, fun fuel hf => ?_⟩, (hval (fun _ => 0)).2, s2.sdf, fun j => (hval j).1,
    fun j => ?_, fun j k h6 h7 h8 => ?_⟩
  · unfold FullSdf.generate
    simp only [ho1, hN1 fuel (le_trans (le_max_left _ _) hf), Option.bind_eq_bind, Option.bind_some]
    rw [h3 fuel (le_trans (le_max_right _ _) hf)]; rfl
  · rcases h4.cell j with h | h
    · exact Or.inl h
    · exact Or.inr h.2
  · rw [(hval j).1]; exact h5 j k h6 h7 h8

end Wavemap
