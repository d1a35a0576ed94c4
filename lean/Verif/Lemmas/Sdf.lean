import Mathlib.Analysis.InnerProductSpace.PiL2
import Mathlib.Order.Interval.Finset.Fin
import Verif.Model.Sdf
import Verif.Props.Containers
import Verif.Props.HashedBlocks
import Verif.Props.HashedWavelet
import Verif.Props.Neighbors
import Verif.Lemmas.ClassifiedMap
/-!
# Lemmas on distance field generation shared by both generators
-/
namespace Wavemap

/-! ## Norms -/

theorem vecNorm_eq (v : Fin 3 → ℝ) : vecNorm v = ‖(WithLp.toLp 2 v : EuclideanSpace ℝ (Fin 3))‖ := by
  rw [EuclideanSpace.norm_eq, Fin.sum_univ_three]
  unfold vecNorm
  simp

theorem vecNorm_nonneg (v : Fin 3 → ℝ) : 0 ≤ vecNorm v := Real.sqrt_nonneg _

theorem vecNorm_add (u v : Fin 3 → ℝ) : vecNorm (fun i => u i + v i) ≤ vecNorm u + vecNorm v := by
  rw [vecNorm_eq, vecNorm_eq, vecNorm_eq]
  exact norm_add_le (WithLp.toLp 2 u : EuclideanSpace ℝ (Fin 3)) (WithLp.toLp 2 v)

theorem vecNorm_mono (u v : Fin 3 → ℝ) (h : ∀ i, |u i| ≤ |v i|) : vecNorm u ≤ vecNorm v := by
  unfold vecNorm
  have := fun i => sq_le_sq.2 (h i)
  exact Real.sqrt_le_sqrt (by linarith [this 0, this 1, this 2])

theorem vecNorm_mul (c : ℝ) (hc : 0 ≤ c) (v : Fin 3 → ℝ) : vecNorm (fun i => c * v i) = c * vecNorm v := by
  unfold vecNorm
  rw [show (c * v 0) ^ 2 + (c * v 1) ^ 2 + (c * v 2) ^ 2 = c ^ 2 * (v 0 ^ 2 + v 1 ^ 2 + v 2 ^ 2) by ring,
    Real.sqrt_mul (sq_nonneg c), Real.sqrt_sq hc]

theorem vecNorm_ge (v : Fin 3 → ℝ) (i : Fin 3) : |v i| ≤ vecNorm v := by
  unfold vecNorm
  rw [← Real.sqrt_sq_eq_abs]
  apply Real.sqrt_le_sqrt
  fin_cases i <;> simp only [Fin.mk_zero, Fin.mk_one, Fin.reduceFinMk] <;> nlinarith [sq_nonneg (v 0), sq_nonneg (v 1), sq_nonneg (v 2)]

theorem indexNorm_le_sqrt3 (o : Index 3) (h : ∀ i, |o i| ≤ 1) : indexNorm o ≤ Real.sqrt 3 := by
  unfold indexNorm vecNorm
  apply Real.sqrt_le_sqrt
  have : ∀ i, (o i : ℝ) ^ 2 ≤ 1 := by
    intro i
    have := h i
    rw [abs_le] at this
    have h1 : (-1 : ℝ) ≤ o i := by exact_mod_cast this.1
    have h2 : (o i : ℝ) ≤ 1 := by exact_mod_cast this.2
    nlinarith
  linarith [this 0, this 1, this 2]

theorem one_le_indexNorm (o : Index 3) (h : o ≠ fun _ => 0) : 1 ≤ indexNorm o := by
  obtain ⟨i, hi⟩ := Function.ne_iff.1 h
  refine le_trans ?_ (vecNorm_ge (fun i => (o i : ℝ)) i)
  have : 1 ≤ |o i| := Int.one_le_abs hi
  rw [← Int.cast_abs]
  exact_mod_cast this

theorem indexNorm_neg (o : Index 3) : indexNorm (fun i => -o i) = indexNorm o := by
  unfold indexNorm vecNorm; push_cast; congr 1; ring

theorem indexNorm_mono (a b : Index 3) (h : ∀ i, |a i| ≤ |b i|) : indexNorm a ≤ indexNorm b := by
  refine vecNorm_mono _ _ fun i => ?_
  rw [← Int.cast_abs, ← Int.cast_abs]
  exact_mod_cast h i

/-! ## The queue -/

namespace BucketQueue
variable {κ α : Type} [Field κ] [LinearOrder κ] [IsStrictOrderedRing κ] [FloorRing κ]

/-- The queue is usable and contains the elements of `L`, in some order. -/
def Holds (q : BucketQueue κ α) (L : List α) : Prop := ∃ s, Rep q s ∧ (s.elems.map Prod.snd).Perm L

theorem Holds.create (n : Nat) (k : κ) (hn : 0 < n) (hk : 0 < k) : Holds (BucketQueue.create n k : BucketQueue κ α) [] :=
  ⟨_, Rep.fresh _ n k hn hk rfl rfl rfl rfl, by simp⟩

theorem Holds.push {q : BucketQueue κ α} {L : List α} (h : Holds q L) (k : κ) (v : α) :
    ∃ q', q.push k v = some q' ∧ Holds q' (v :: L) := by
  obtain ⟨s, hs, hp⟩ := h
  obtain ⟨q', h1, h2⟩ := hs.step (.push k v) trivial
  refine ⟨q', h1, _, h2, ?_⟩
  show ((s.elems ++ [(_, v)]).map Prod.snd).Perm _
  rw [List.map_append]
  exact (List.perm_append_comm).trans (hp.cons v)

theorem Holds.empty {q : BucketQueue κ α} {L : List α} (h : Holds q L) : q.empty = true ↔ L = [] := by
  obtain ⟨s, hs, hp⟩ := h
  rw [show q.empty = (q.size == 0) from rfl, beq_iff_eq, hs.size, ← List.length_map (f := Prod.snd), hp.length_eq,
    List.length_eq_zero_iff]

theorem Holds.next {q : BucketQueue κ α} {L : List α} (h : Holds q L) (hne : L ≠ []) :
    ∃ v q1 q2 L', q.front = some (v, q1) ∧ q1.pop = some q2 ∧ Holds q2 L' ∧ L.Perm (v :: L') := by
  obtain ⟨s, hs, hp⟩ := h
  have hne' : s.elems ≠ [] := by
    rintro he
    rw [he] at hp
    exact hne (List.nil_perm.1 hp)
  obtain ⟨l, hl, hln, h1, h2⟩ := hs.lowest hne'
  cases hb : inBucket s.elems l with
  | nil => exact absurd hb h1
  | cons v r =>
    have hf : q.front = some (v, { q with last := l }) := by
      unfold front
      dsimp only
      rw [hl, hs.bucket l hln, hb]
    have hrep : Rep { q with last := l } s := ⟨hs.n, hs.k, hs.npos, hs.kpos, hs.range, hs.len, hs.bucket, h2, hs.size⟩
    obtain ⟨q2, h3, h4⟩ := hrep.step .pop trivial
    refine ⟨v, _, q2, (specPop s.elems).map Prod.snd, hf, h3, ⟨_, h4, List.Perm.refl _⟩, ?_⟩
    refine hp.symm.trans ?_
    have hn := next_of_lowest l (fun e he => (hs.range e he).1) h1 h2
    -- the popped element is the first one of bucket `l`
    have gen : ∀ E : List (Int × α), (∀ e ∈ E, isNext s.elems e = decide (e.1 = (l : Int))) → inBucket E l = v :: r →
        (E.map Prod.snd).Perm (v :: (E.eraseP (isNext s.elems)).map Prod.snd) := by
      intro E hE hv
      induction E with
      | nil => simp [inBucket] at hv
      | cons a E ih =>
        by_cases ha : a.1 = (l : Int)
        · rw [List.eraseP_cons_of_pos (by rw [hE a (by simp)]; simpa using ha)]
          have : a.2 = v := by
            unfold inBucket at hv
            simp [ha] at hv
            exact hv.1
          rw [List.map_cons, this]
        · rw [List.eraseP_cons_of_neg (by rw [hE a (by simp)]; simpa using ha), List.map_cons, List.map_cons]
          have hv' : inBucket E l = v :: r := by
            unfold inBucket at hv ⊢
            simpa [ha] using hv
          exact ((ih (fun e he => hE e (by simp [he])) hv').cons a.2).trans (List.Perm.swap _ _ _)
    exact gen _ hn hb

end BucketQueue

/-! ## Loops -/

theorem foldlM_spec {σ β : Type} (f : σ → β → Option σ) (P : σ → Prop) (R : σ → σ → Prop) (Q : β → σ → Prop)
    (hrefl : ∀ s, R s s) (htrans : ∀ a b c, R a b → R b c → R a c) (hQ : ∀ b s s', R s s' → Q b s → Q b s')
    (l : List β) (s : σ) (hs : P s)
    (hstep : ∀ b ∈ l, ∀ s, P s → ∃ s', f s b = some s' ∧ P s' ∧ R s s' ∧ Q b s') :
    ∃ s', l.foldlM f s = some s' ∧ P s' ∧ R s s' ∧ ∀ b ∈ l, Q b s' := by
  induction l generalizing s with
  | nil => exact ⟨s, rfl, hs, hrefl s, by simp⟩
  | cons b l ih =>
    obtain ⟨s1, h1, h2, h3, h4⟩ := hstep b (by simp) s hs
    obtain ⟨s2, h5, h6, h7, h8⟩ := ih s1 h2 fun b' hb' => hstep b' (by simp [hb'])
    refine ⟨s2, by rw [List.foldlM_cons, h1]; exact h5, h6, htrans _ _ _ h3 h7, ?_⟩
    intro b' hb'
    rcases List.mem_cons.1 hb' with rfl | hb'
    · exact hQ _ _ _ h7 h4
    · exact h8 b' hb'

/-- Cells of the grid that pads a node with one voxel. -/
def Padded (n : NdtreeIndex 3) (j : Index 3) : Prop :=
  ∀ i, nodeIndexToMinCornerIndex n i - 1 ≤ j i ∧ j i ≤ nodeIndexToMaxCornerIndex n i + 1

/-- The cells the inner seeding loop runs over. -/
theorem grid_cells (mn mx : Index 3) (hv : ∀ i, mn i ≤ mx i) :
    ∃ cells : List (Index 3), (∀ j, j ∈ cells ↔ ∀ i, mn i ≤ j i ∧ j i ≤ mx i) ∧
      ∃ N, ∀ fuel ≥ N, ∃ V, gridVisit (gridBounds mn mx) (gridEnd (gridBounds mn mx)) fuel (gridBegin (gridBounds mn mx)) = some V ∧
        V.mapM indexOfList = some cells := by
  obtain ⟨V, ⟨N, hN⟩, h1, h2, -, -⟩ := C29_grid_iteration (by decide) mn mx hv
  have hm : ∃ cells : List (Index 3), V.mapM indexOfList = some cells ∧ V = cells.map fun o => List.ofFn o := by
    clear hN h2
    induction V with
    | nil => exact ⟨[], rfl, rfl⟩
    | cons t V ih =>
      obtain ⟨cs, hc, hV⟩ := ih fun t ht => h1 t (by simp [ht])
      obtain ⟨idx, rfl⟩ := h1 t (by simp)
      exact ⟨idx :: cs, by rw [List.mapM_cons, indexOfList_ofFn, hc]; rfl, by rw [hV]; rfl⟩
  obtain ⟨cells, hc, hV⟩ := hm
  refine ⟨cells, fun j => ?_, N, fun fuel hf => ⟨V, hN fuel hf, hc⟩⟩
  rw [← h2 j, hV, List.mem_map]
  constructor
  · intro hj; exact ⟨j, hj, rfl⟩
  · rintro ⟨o, ho, he⟩
    rw [← List.ofFn_injective he]; exact ho

theorem corner_le (n : NdtreeIndex 3) (i : Fin 3) : nodeIndexToMinCornerIndex n i ≤ nodeIndexToMaxCornerIndex n i := by
  unfold nodeIndexToMaxCornerIndex
  have : 0 < exp2 n.height.toNat := by rw [exp2_eq]; exact Nat.two_pow_pos _
  omega

theorem sdfSeed_spec {α : Type} (cl : OccClassifier) (cell : Index 3 → Index 3 → SdfState α → Index 3 → Option (SdfState α))
    (P : SdfState α → Prop) (R : SdfState α → SdfState α → Prop) (Q : NdtreeIndex 3 → Index 3 → SdfState α → Prop)
    (hrefl : ∀ s, R s s) (htrans : ∀ a b c, R a b → R b c → R a c) (hQ : ∀ n j s s', R s s' → Q n j s → Q n j s')
    (leaves : List (NdtreeIndex 3 × ℚ)) (s : SdfState α) (hs : P s)
    (hcell : ∀ e ∈ leaves, cl.is e.2 OccId.occupied.toMask = true → ∀ j, Padded e.1 j → ∀ s, P s →
      ∃ s', cell (nodeIndexToMinCornerIndex e.1) (nodeIndexToMaxCornerIndex e.1) s j = some s' ∧ P s' ∧ R s s' ∧ Q e.1 j s') :
    ∃ s', (∃ N, ∀ fuel ≥ N, sdfSeed cl fuel cell leaves s = some s') ∧ P s' ∧
      ∀ e ∈ leaves, cl.is e.2 OccId.occupied.toMask = true → ∀ j, Padded e.1 j → Q e.1 j s' := by
  suffices ∃ s', (∃ N, ∀ fuel ≥ N, sdfSeed cl fuel cell leaves s = some s') ∧ P s' ∧ R s s' ∧
      ∀ e ∈ leaves, cl.is e.2 OccId.occupied.toMask = true → ∀ j, Padded e.1 j → Q e.1 j s' by
    obtain ⟨s', h1, h2, -, h3⟩ := this
    exact ⟨s', h1, h2, h3⟩
  induction leaves generalizing s with
  | nil => exact ⟨s, ⟨0, fun _ _ => rfl⟩, hs, hrefl s, by simp⟩
  | cons e l ih =>
    have hrest : ∀ e ∈ l, cl.is e.2 OccId.occupied.toMask = true → ∀ j, Padded e.1 j → ∀ s, P s →
        ∃ s', cell (nodeIndexToMinCornerIndex e.1) (nodeIndexToMaxCornerIndex e.1) s j = some s' ∧ P s' ∧ R s s' ∧ Q e.1 j s' :=
      fun e' he' => hcell e' (by simp [he'])
    by_cases ho : cl.is e.2 OccId.occupied.toMask = true
    · obtain ⟨cells, hc, N1, hN1⟩ := grid_cells (fun i => nodeIndexToMinCornerIndex e.1 i - 1)
        (fun i => nodeIndexToMaxCornerIndex e.1 i + 1) (fun i => by have := corner_le e.1 i; omega)
      obtain ⟨s1, h1, h2, h3, h4⟩ := foldlM_spec (cell (nodeIndexToMinCornerIndex e.1) (nodeIndexToMaxCornerIndex e.1)) P R
        (fun j s => Q e.1 j s) hrefl htrans (hQ e.1) cells s hs
        (fun j hj s hs => hcell e (by simp) ho j ((hc j).1 hj) s hs)
      obtain ⟨s2, ⟨N2, hN2⟩, h5, h6, h7⟩ := ih s1 h2 hrest
      refine ⟨s2, ⟨max N1 N2, fun fuel hf => ?_⟩, h5, htrans _ _ _ h3 h6, ?_⟩
      · obtain ⟨V, hV, hm⟩ := hN1 fuel (le_trans (le_max_left _ _) hf)
        have := hN2 fuel (le_trans (le_max_right _ _) hf)
        unfold sdfSeed at this ⊢
        rw [List.foldlM_cons, if_pos ho]
        simp only [hV, hm, Option.bind_eq_bind, Option.bind_some, h1]
        exact this
      · intro e' he' ho' j hj
        rcases List.mem_cons.1 he' with rfl | he'
        · exact hQ _ _ _ _ h6 (h4 j ((hc j).2 hj))
        · exact h7 e' he' ho' j hj
    · obtain ⟨s2, ⟨N2, hN2⟩, h5, h6, h7⟩ := ih s hs hrest
      refine ⟨s2, ⟨N2, fun fuel hf => ?_⟩, h5, h6, ?_⟩
      · have := hN2 fuel hf
        unfold sdfSeed at this ⊢
        rw [List.foldlM_cons, if_neg ho]
        exact this
      · intro e' he' ho' j hj
        rcases List.mem_cons.1 he' with rfl | he'
        · exact absurd ho' ho
        · exact h7 e' he' ho' j hj

theorem sdfPropagate_spec {α : Type} (offsets : List (Index 3)) (visit : Index 3 → α → SdfState α → Index 3 → Option (SdfState α))
    (P : Nat → SdfState α → Prop)
    (hstep : ∀ n s, P n s → s.queue.empty = false → ∃ x q1 q2 s' n', s.queue.front = some (x, q1) ∧ q1.pop = some q2 ∧
      offsets.foldlM (visit x (s.sdf.getValueOrDefault x)) { s with queue := q2 } = some s' ∧ n' < n ∧ P n' s')
    (n : Nat) (s : SdfState α) (hs : P n s) :
    ∃ s', (∀ fuel ≥ n, sdfPropagate offsets visit fuel s = some s'.sdf) ∧ ∃ n', P n' s' := by
  induction n using Nat.strong_induction_on generalizing s with
  | _ n ih =>
    by_cases he : s.queue.empty = true
    · exact ⟨s, fun fuel _ => by unfold sdfPropagate; rw [if_pos he], n, hs⟩
    · obtain ⟨x, q1, q2, s1, n1, h1, h2, h3, h4, h5⟩ := hstep n s hs (by simpa using he)
      obtain ⟨s2, h6, h7⟩ := ih n1 h4 s1 h5
      refine ⟨s2, fun fuel hf => ?_, h7⟩
      obtain ⟨f, rfl⟩ : ∃ f, fuel = f + 1 := ⟨fuel - 1, by omega⟩
      unfold sdfPropagate
      rw [if_neg he]
      simp only [h1, h2, h3]
      exact h6 f (by omega)

/-! ## The field -/

namespace DenseBlockHash
variable {α : Type}

theorem getValueOrDefault_updateValue (m : DenseBlockHash 3 4 α) (i j : Index 3) (f : α → α) :
    (m.updateValue i f).getValueOrDefault j = if j = i then f (m.getValueOrDefault i) else m.getValueOrDefault j := by
  rw [getValueOrDefault_eq, getValue_updateValue (by decide)]
  by_cases h : j = i
  · simp [h]
  · simp only [h, if_false]
    split
    · rfl
    · rw [getValueOrDefault_eq]; rfl

theorem create_getValueOrDefault (dv : α) (j : Index 3) : (create dv : DenseBlockHash 3 4 α).getValueOrDefault j = dv := by
  rw [getValueOrDefault_eq]; rfl

end DenseBlockHash

/-! ## The occupancy map -/

/-- The class of a cell in the map the field is generated from. -/
def sdfClass (m : HashedWaveletOctree) (cl : OccClassifier) (j : Index 3) : OccClass := classOf cl.threshold (m.getCellValue j)

theorem sdf_leaf_value {m : HashedWaveletOctree} (hm : m.Reachable) (e : NdtreeIndex 3 × ℚ) (he : e ∈ m.forEachLeaf) (j : Index 3)
    (hj : NodeRegion e.1 j) : e.2 = m.getCellValue j := by
  have h := hm.inv
  have hmem : e ∈ m.forEachLeaf.filter (fun e => decide (NodeRegion e.1 j)) := List.mem_filter.2 ⟨he, by simpa using hj⟩
  have hal := (HashedWaveletOctree.allocated_iff m j).1 ((C23_hashed_wavelet_disjoint m hm j).2 ⟨e, he, hj⟩)
  obtain ⟨b, hb⟩ := Option.isSome_iff_exists.1 hal
  have hne : b.empty = false := by
    by_contra hc
    have hf := HashedWaveletOctree.filter_blocks h _ j ((inBlock_iff _ _).2 rfl) b hb
    have h0 : m.forEachLeaf.filter (fun e => decide (NodeRegion e.1 j)) = [] := by
      unfold HashedWaveletOctree.forEachLeaf
      rw [hf]
      unfold WaveletBlock.forEachLeaf
      rw [if_pos (by simpa using hc)]; simp
    rw [h0] at hmem; cases hmem
  obtain ⟨n, -, -, -, hl⟩ := C23_hashed_wavelet_leaves m hm j ⟨_, b, (inBlock_iff _ _).2 rfl, hb, hne⟩
  rw [hl, List.mem_singleton] at hmem
  rw [hmem]

theorem leaf_occupied {m : HashedWaveletOctree} (hm : m.Reachable) (cl : OccClassifier) (e : NdtreeIndex 3 × ℚ) (he : e ∈ m.forEachLeaf)
    (ho : cl.is e.2 OccId.occupied.toMask = true) (j : Index 3) (hj : NodeRegion e.1 j) : sdfClass m cl j = .occupied := by
  rw [(is_class cl e.2).2.1, decide_eq_true_eq, sdf_leaf_value hm e he j hj] at ho
  exact ho

theorem observed_leaf {m : HashedWaveletOctree} (hm : m.Reachable) (cl : OccClassifier) (j : Index 3) (hj : sdfClass m cl j ≠ .unobserved) :
    ∃ e ∈ m.forEachLeaf, NodeRegion e.1 j ∧ e.2 = m.getCellValue j := by
  by_contra hc
  push Not at hc
  apply hj
  unfold sdfClass classOf
  rw [if_pos]
  refine C23_hashed_wavelet_unreported m hm j fun e he hr => hc e he hr (sdf_leaf_value hm e he j hr)

theorem occupied_leaf {m : HashedWaveletOctree} (hm : m.Reachable) (cl : OccClassifier) (j : Index 3) (hj : sdfClass m cl j = .occupied) :
    ∃ e ∈ m.forEachLeaf, cl.is e.2 OccId.occupied.toMask = true ∧ NodeRegion e.1 j := by
  obtain ⟨e, he, hr, hv⟩ := observed_leaf hm cl j (by rw [hj]; decide)
  refine ⟨e, he, ?_, hr⟩
  rw [(is_class cl e.2).2.1, decide_eq_true_eq, hv]
  exact hj

/-- The observed cells are finitely many. -/
theorem observed_finite {m : HashedWaveletOctree} (hm : m.Reachable) (cl : OccClassifier) :
    ∃ S : Finset (Index 3), ∀ j, sdfClass m cl j ≠ .unobserved → j ∈ S := by
  have hfin : ∀ n : NdtreeIndex 3, {j : Index 3 | NodeRegion n j}.Finite := by
    intro n
    have : {j : Index 3 | NodeRegion n j} ⊆ Set.univ.pi fun i => Set.Icc (nodeIndexToMinCornerIndex n i) (nodeIndexToMaxCornerIndex n i) := by
      intro j hj i _
      exact (C03_corners_span_region n j).2 hj i
    exact Set.Finite.subset (Set.Finite.pi' fun i => Set.finite_Icc _ _) fun j hj i => this hj i trivial
  have hall : (⋃ e ∈ m.forEachLeaf, {j : Index 3 | NodeRegion e.1 j}).Finite :=
    Set.Finite.biUnion (List.finite_toSet _) fun e _ => hfin e.1
  refine ⟨hall.toFinset, fun j hj => ?_⟩
  rw [Set.Finite.mem_toFinset, Set.mem_iUnion₂]
  obtain ⟨e, he, hr, -⟩ := observed_leaf hm cl j hj
  exact ⟨e, he, hr⟩

/-! ## Distances between cells -/

/-- The point of the closed cell `k` that is closest to the centre of a touching cell `j` is half the offset away. -/
theorem touching_point (w : ℝ) (hw : 0 < w) (j k : Index 3) (h : ∀ i, |j i - k i| ≤ 1) :
    ∃ q : Fin 3 → ℝ, (∀ i, (k i : ℝ) * w ≤ q i ∧ q i ≤ ((k i : ℝ) + 1) * w) ∧
      vecNorm (fun i => ((j i : ℝ) + 1 / 2) * w - q i) = 1 / 2 * w * indexNorm fun i => j i - k i := by
  refine ⟨fun i => ((j i : ℝ) + 1 / 2) * w - 1 / 2 * w * ((j i - k i : Int) : ℝ), fun i => ?_, ?_⟩
  · have := h i
    rw [abs_le] at this
    have h1 : (-1 : ℝ) ≤ (j i : ℝ) - k i := by exact_mod_cast this.1
    have h2 : (j i : ℝ) - k i ≤ 1 := by exact_mod_cast this.2
    push_cast
    constructor <;> nlinarith
  · unfold indexNorm
    rw [← vecNorm_mul _ (by positivity)]
    congr 1
    funext i
    ring

theorem clamp_padded (n : NdtreeIndex 3) (j : Index 3) (hj : Padded n j) :
    NodeRegion n (nearestInnerIndex (nodeIndexToMinCornerIndex n) (nodeIndexToMaxCornerIndex n) j) ∧
      (∀ i, |j i - nearestInnerIndex (nodeIndexToMinCornerIndex n) (nodeIndexToMaxCornerIndex n) j i| ≤ 1) ∧
      (j = nearestInnerIndex (nodeIndexToMinCornerIndex n) (nodeIndexToMaxCornerIndex n) j ↔ NodeRegion n j) ∧
      ∀ k, NodeRegion n k → ∀ i, |j i - nearestInnerIndex (nodeIndexToMinCornerIndex n) (nodeIndexToMaxCornerIndex n) j i| ≤ |j i - k i| := by
  unfold nearestInnerIndex
  have hc := corner_le n
  refine ⟨(C03_corners_span_region n _).1 fun i => ?_, fun i => ?_, ?_, ?_⟩
  · have := hc i; omega
  · have := hc i; have := hj i; rw [abs_le]; omega
  · rw [← C03_corners_span_region]
    constructor
    · intro h i
      have := congrFun h i
      have := hc i
      omega
    · intro h; funext i; have := h i; omega
  · intro k hk i
    have := (C03_corners_span_region n k).2 hk i
    show |j i - min (max (j i) (nodeIndexToMinCornerIndex n i)) (nodeIndexToMaxCornerIndex n i)| ≤ |j i - k i|
    rcases abs_cases (j i - k i) with ⟨h1, _⟩ | ⟨h1, _⟩ <;> rw [h1, abs_le] <;> omega

end Wavemap
