import Verif.Lemmas.Sdf
/-!
# Lemmas on the quasi-Euclidean generator
-/
namespace Wavemap

/-- Some point of a cell of class `c` is at most `r` away from the centre of cell `j`. -/
def Near (cls : Index 3 → OccClass) (w : ℝ) (c : OccClass) (j : Index 3) (r : ℝ) : Prop :=
  ∃ k, cls k = c ∧ ∃ q : Fin 3 → ℝ, (∀ i, (k i : ℝ) * w ≤ q i ∧ q i ≤ ((k i : ℝ) + 1) * w) ∧
    vecNorm (fun i => ((j i : ℝ) + 1 / 2) * w - q i) ≤ r

theorem Near.mono {cls : Index 3 → OccClass} {w : ℝ} {c : OccClass} {j : Index 3} {r r' : ℝ} (h : Near cls w c j r) (hr : r ≤ r') :
    Near cls w c j r' := by
  obtain ⟨k, hk, q, hq, hn⟩ := h
  exact ⟨k, hk, q, hq, hn.trans hr⟩

theorem Near.touching {cls : Index 3 → OccClass} {w : ℝ} (hw : 0 < w) {c : OccClass} (j k : Index 3) (hk : cls k = c)
    (h : ∀ i, |j i - k i| ≤ 1) : Near cls w c j (1 / 2 * w * indexNorm fun i => j i - k i) := by
  obtain ⟨q, hq, he⟩ := touching_point w hw j k h
  exact ⟨k, hk, q, hq, he.le⟩

theorem Near.step {cls : Index 3 → OccClass} {w : ℝ} (hw : 0 < w) {c : OccClass} {j : Index 3} {r : ℝ} (h : Near cls w c j r) (o : Index 3) :
    Near cls w c (fun i => j i + o i) (r + w * indexNorm o) := by
  obtain ⟨k, hk, q, hq, hn⟩ := h
  refine ⟨k, hk, q, hq, ?_⟩
  have h1 := vecNorm_add (fun i => w * (o i : ℝ)) (fun i => ((j i : ℝ) + 1 / 2) * w - q i)
  have h2 : vecNorm (fun i => w * (o i : ℝ)) = w * indexNorm o := vecNorm_mul w hw.le _
  have h3 : (fun i => (((j i + o i : Int) : ℝ) + 1 / 2) * w - q i) = fun i => w * (o i : ℝ) + (((j i : ℝ) + 1 / 2) * w - q i) := by
    funext i; push_cast; ring
  rw [h3]
  linarith

namespace QuasiSdf

/-- What is known about a cell whose stored value is not the default. -/
def CellOk (cls : Index 3 → OccClass) (D w : ℝ) (j : Index 3) (x : ℝ) : Prop :=
  (cls j = .free ∧ 0 < x ∧ x < D ∧ Near cls w .occupied j |x|) ∨ (cls j = .occupied ∧ x < 0 ∧ -D ≤ x ∧ Near cls w .free j |x|)

structure Inv (cls : Index 3 → OccClass) (D w : ℝ) (S : Finset (Index 3)) (n : Nat) (s : SdfState ℝ) : Prop where
  dv : s.sdf.defaultValue = D
  queue : ∃ L, s.queue.Holds L ∧ L.length + (S.filter fun j => s.sdf.getValueOrDefault j = D).card ≤ n
  cell : ∀ j, s.sdf.getValueOrDefault j = D ∨ CellOk cls D w j (s.sdf.getValueOrDefault j)

/-- Free cells that touch an occupied cell are at most half the offset away from it. -/
def Bound (cls : Index 3 → OccClass) (w : ℝ) (f : Index 3 → ℝ) : Prop :=
  ∀ j k, cls j = .free → cls k = .occupied → (∀ i, |j i - k i| ≤ 1) → f j ≤ 1 / 2 * w * indexNorm fun i => j i - k i

variable {occ : Index 3 → ℚ} {cl : OccClassifier} {D w : ℝ} {S : Finset (Index 3)}

theorem seedCell_spec (hw : 0 < w) (hD : 0 < D) (n : NdtreeIndex 3)
    (hn : ∀ k, NodeRegion n k → classOf cl.threshold (occ k) = .occupied) (j : Index 3) (hj : Padded n j) (s : SdfState ℝ)
    (hs : ∃ N, Inv (fun j => classOf cl.threshold (occ j)) D w S N s) :
    ∃ s', seedCell occ cl w (nodeIndexToMinCornerIndex n) (nodeIndexToMaxCornerIndex n) s j = some s' ∧
      (∃ N, Inv (fun j => classOf cl.threshold (occ j)) D w S N s') ∧
      (∀ i, s'.sdf.getValueOrDefault i ≤ s.sdf.getValueOrDefault i) ∧
      (classOf cl.threshold (occ j) = .free → ∀ k, NodeRegion n k → (∀ i, |j i - k i| ≤ 1) →
        s'.sdf.getValueOrDefault j ≤ 1 / 2 * w * indexNorm fun i => j i - k i) := by
  obtain ⟨N, hI⟩ := hs
  obtain ⟨hr, h1, h2, h3⟩ := clamp_padded n j hj
  unfold seedCell
  dsimp only
  generalize nearestInnerIndex (nodeIndexToMinCornerIndex n) (nodeIndexToMaxCornerIndex n) j = inner at *
  by_cases hin : j = inner
  · rw [if_pos hin]
    refine ⟨s, rfl, ⟨N, hI⟩, fun i => le_rfl, fun hf => ?_⟩
    have := hn j (h2.1 hin)
    rw [this] at hf; cases hf
  rw [if_neg hin]
  by_cases hf : classOf cl.threshold (occ j) = .free
  swap
  · rw [if_pos (by rw [(is_class cl _).1]; simpa using hf)]
    exact ⟨s, rfl, ⟨N, hI⟩, fun i => le_rfl, fun h => absurd h hf⟩
  rw [if_neg (by rw [(is_class cl _).1]; simpa using hf)]
  have hne : (fun i => j i - inner i) ≠ fun _ => 0 := by
    intro h; apply hin; funext i; have := congrFun h i; omega
  have hpos : 0 < 1 / 2 * w * indexNorm fun i => j i - inner i := by
    have := one_le_indexNorm _ hne
    positivity
  have hnear : Near (fun j => classOf cl.threshold (occ j)) w .occupied j (1 / 2 * w * indexNorm fun i => j i - inner i) :=
    Near.touching hw j inner (hn inner hr) h1
  have hle : ∀ k, NodeRegion n k → (1 / 2 * w * indexNorm fun i => j i - inner i) ≤ 1 / 2 * w * indexNorm fun i => j i - k i := by
    intro k hk
    exact mul_le_mul_of_nonneg_left (indexNorm_mono _ _ (h3 k hk)) (by positivity)
  generalize (1 / 2 * w * indexNorm fun i => j i - inner i) = d at *
  have hval : ∀ i, (s.sdf.updateValue j fun _ => min (s.sdf.getValueOrDefault j) d).getValueOrDefault i =
      if i = j then min (s.sdf.getValueOrDefault j) d else s.sdf.getValueOrDefault i := fun i =>
    DenseBlockHash.getValueOrDefault_updateValue _ _ _ _
  have hcell : ∀ i, (if i = j then min (s.sdf.getValueOrDefault j) d else s.sdf.getValueOrDefault i) = D ∨
      CellOk (fun j => classOf cl.threshold (occ j)) D w i (if i = j then min (s.sdf.getValueOrDefault j) d else s.sdf.getValueOrDefault i) := by
    intro i
    by_cases hi : i = j
    swap
    · rw [if_neg hi]; exact hI.cell i
    subst hi
    rw [if_pos rfl]
    rcases hI.cell i with hx | hx
    · rw [hx]
      rcases le_or_gt D d with h | h
      · left; exact min_eq_left h
      · right; left
        rw [min_eq_right h.le, abs_of_pos hpos]
        exact ⟨hf, hpos, h, hnear⟩
    · right
      rcases hx with ⟨_, h5, h6, h7⟩ | ⟨h4, _⟩
      · left
        refine ⟨hf, lt_min h5 hpos, lt_of_le_of_lt (min_le_left _ _) h6, ?_⟩
        rw [abs_of_pos (lt_min h5 hpos)]
        rw [abs_of_pos h5] at h7
        rcases min_choice (s.sdf.getValueOrDefault i) d with h | h <;> rw [h]
        · exact h7
        · exact hnear
      · dsimp only at h4; rw [hf] at h4; cases h4
  obtain ⟨L, hL, hm⟩ := hI.queue
  have hmono : ∀ i, (if i = j then min (s.sdf.getValueOrDefault j) d else s.sdf.getValueOrDefault i) ≤ s.sdf.getValueOrDefault i := by
    intro i
    split
    · next h => rw [h]; exact min_le_left _ _
    · exact le_rfl
  split
  · obtain ⟨q', hq, hq'⟩ := hL.push d j
    rw [hq]
    refine ⟨_, rfl, ⟨_, hI.dv, ⟨_, hq', le_rfl⟩, fun i => ?_⟩, fun i => ?_, fun _ k hk _ => ?_⟩
    · dsimp only; rw [hval]; exact hcell i
    · dsimp only; rw [hval]; exact hmono i
    · dsimp only; rw [hval, if_pos rfl]; exact (min_le_right _ _).trans (hle k hk)
  · refine ⟨_, rfl, ⟨_, hI.dv, ⟨_, hL, le_rfl⟩, fun i => ?_⟩, fun i => ?_, fun _ k hk _ => ?_⟩
    · dsimp only; rw [hval]; exact hcell i
    · dsimp only; rw [hval]; exact hmono i
    · dsimp only; rw [hval, if_pos rfl]; exact (min_le_right _ _).trans (hle k hk)

theorem count_write (f : Index 3 → ℝ) (D x : ℝ) (j : Index 3) (hx : x ≠ D) :
    ((S.filter fun i => (if i = j then x else f i) = D).card ≤ (S.filter fun i => f i = D).card) ∧
    (j ∈ S → f j = D → (S.filter fun i => (if i = j then x else f i) = D).card + 1 ≤ (S.filter fun i => f i = D).card) := by
  have hsub : (S.filter fun i => (if i = j then x else f i) = D) = (S.filter fun i => f i = D).erase j := by
    ext i
    simp only [Finset.mem_filter, Finset.mem_erase]
    by_cases h : i = j
    · simp [h, hx]
    · simp [h]
  rw [hsub]
  refine ⟨Finset.card_le_card (Finset.erase_subset _ _), fun h1 h2 => ?_⟩
  rw [Finset.card_erase_of_mem (Finset.mem_filter.2 ⟨h1, h2⟩)]
  have := Finset.card_pos.2 ⟨j, (Finset.mem_filter (p := fun i => f i = D)).2 ⟨h1, h2⟩⟩
  omega

theorem store_spec {cls : Index 3 → OccClass} (hS : ∀ j, cls j ≠ .unobserved → j ∈ S) {N : Nat} {s : SdfState ℝ}
    (hI : Inv cls D w S N s) (hB : Bound cls w s.sdf.getValueOrDefault) (j : Index 3) (v c : ℝ) (u : Prop) [Decidable u]
    (hu : u ↔ s.sdf.defaultValue = s.sdf.getValueOrDefault j) (hc : 0 < c)
    (hv : (cls j = .free ∧ 0 < v ∧ v = s.sdf.getValueOrDefault j ∧ min |v| c < D ∧ Near cls w .occupied j (min |v| c)) ∨
      (cls j = .occupied ∧ v < 0 ∧ -D ≤ v ∧ Near cls w .free j (min |v| c))) :
    ∃ s', store s j v c u = some s' ∧ Inv cls D w S N s' ∧ Bound cls w s'.sdf.getValueOrDefault := by
  have hmpos : 0 < min |v| c := by
    rcases hv with h | h
    · exact lt_min (abs_pos.2 h.2.1.ne') hc
    · exact lt_min (abs_pos.2 h.2.1.ne) hc
  have hnew : CellOk cls D w j (copysign (min |v| c) v) ∧ copysign (min |v| c) v ≠ D ∧
      (cls j = .free → copysign (min |v| c) v ≤ s.sdf.getValueOrDefault j) ∧ cls j ≠ .unobserved := by
    rcases hv with ⟨h1, h2, h3, h4, h5⟩ | ⟨h1, h2, h3, h4⟩
    · have : copysign (min |v| c) v = min |v| c := if_neg (not_lt.2 h2.le)
      rw [this]
      refine ⟨Or.inl ⟨h1, hmpos, h4, by rwa [abs_of_pos hmpos]⟩, h4.ne, fun _ => ?_, by rw [h1]; decide⟩
      rw [← h3, abs_of_pos h2]; exact min_le_left _ _
    · have : copysign (min |v| c) v = -min |v| c := if_pos h2
      rw [this]
      have hle : min |v| c ≤ D := (min_le_left _ _).trans (by rw [abs_of_neg h2]; linarith)
      refine ⟨Or.inr ⟨h1, by linarith, by linarith, by rwa [abs_neg, abs_of_pos hmpos]⟩, by linarith,
        (fun h => by rw [h1] at h; cases h), by rw [h1]; decide⟩
  generalize hx : copysign (min |v| c) v = x at *
  obtain ⟨hok, hxD, hmono, hobs⟩ := hnew
  have hval : ∀ i, (s.sdf.updateValue j fun _ => x).getValueOrDefault i = if i = j then x else s.sdf.getValueOrDefault i := fun i =>
    DenseBlockHash.getValueOrDefault_updateValue _ _ _ _
  have hcell : ∀ i, (if i = j then x else s.sdf.getValueOrDefault i) = D ∨
      CellOk cls D w i (if i = j then x else s.sdf.getValueOrDefault i) := by
    intro i
    by_cases hi : i = j
    · subst hi; rw [if_pos rfl]; exact Or.inr hok
    · rw [if_neg hi]; exact hI.cell i
  have hB' : Bound cls w fun i => if i = j then x else s.sdf.getValueOrDefault i := by
    intro a b ha hb hab
    dsimp only
    split
    · next h => subst h; exact (hmono ha).trans (hB a b ha hb hab)
    · exact hB a b ha hb hab
  obtain ⟨L, hL, hm⟩ := hI.queue
  obtain ⟨hc1, hc2⟩ := count_write (S := S) s.sdf.getValueOrDefault D x j hxD
  unfold store
  rw [hx]
  dsimp only
  by_cases huv : u
  · rw [if_pos huv]
    obtain ⟨q', hq, hq'⟩ := hL.push c j
    rw [hq]
    have hjD : s.sdf.getValueOrDefault j = D := by rw [← hI.dv]; exact (hu.1 huv).symm
    refine ⟨_, rfl, ⟨hI.dv, ⟨_, hq', ?_⟩, fun i => ?_⟩, ?_⟩
    · dsimp only
      simp only [hval]
      have := hc2 (hS j hobs) hjD
      rw [List.length_cons]; omega
    · dsimp only; rw [hval]; exact hcell i
    · show Bound cls w fun i => _
      simp only [hval]; exact hB'
  · rw [if_neg huv]
    refine ⟨_, rfl, ⟨hI.dv, ⟨_, hL, ?_⟩, fun i => ?_⟩, ?_⟩
    · dsimp only
      simp only [hval]
      omega
    · dsimp only; rw [hval]; exact hcell i
    · show Bound cls w fun i => _
      simp only [hval]; exact hB'

/-- Writing the value a cell already has changes nothing but the allocation. -/
theorem same_spec {cls : Index 3 → OccClass} {N : Nat} {s : SdfState ℝ} (hI : Inv cls D w S N s)
    (hB : Bound cls w s.sdf.getValueOrDefault) (j : Index 3) (f : ℝ → ℝ) (hf : f (s.sdf.getValueOrDefault j) = s.sdf.getValueOrDefault j) :
    Inv cls D w S N { s with sdf := s.sdf.updateValue j f } ∧
      Bound cls w ({ s with sdf := s.sdf.updateValue j f } : SdfState ℝ).sdf.getValueOrDefault := by
  have hval : ∀ i, (s.sdf.updateValue j f).getValueOrDefault i = s.sdf.getValueOrDefault i := fun i => by
    rw [DenseBlockHash.getValueOrDefault_updateValue]
    split
    · next h => rw [h, hf]
    · rfl
  obtain ⟨L, hL, hm⟩ := hI.queue
  refine ⟨⟨hI.dv, ⟨L, hL, ?_⟩, fun i => ?_⟩, ?_⟩
  · dsimp only; simp only [hval]; exact hm
  · dsimp only; rw [hval]; exact hI.cell i
  · intro a b; dsimp only; rw [hval]; exact hB a b

theorem visit_spec (hw : 0 < w) (hD : 0 < D) (hS : ∀ j, classOf cl.threshold (occ j) ≠ .unobserved → j ∈ S) {N : Nat} {s : SdfState ℝ}
    (hI : Inv (fun j => classOf cl.threshold (occ j)) D w S N s)
    (hB : Bound (fun j => classOf cl.threshold (occ j)) w s.sdf.getValueOrDefault) (x : Index 3) (v : ℝ)
    (hv : v = D ∨ CellOk (fun j => classOf cl.threshold (occ j)) D w x v)
    (hvB : ∀ k, classOf cl.threshold (occ x) = .free → classOf cl.threshold (occ k) = .occupied → (∀ i, |x i - k i| ≤ 1) →
      v ≤ 1 / 2 * w * indexNorm fun i => x i - k i)
    (o : Index 3) (ho : ∀ i, |o i| ≤ 1) (hne : o ≠ fun _ => 0) :
    ∃ s', visit occ cl D w x v s o = some s' ∧ Inv (fun j => classOf cl.threshold (occ j)) D w S N s' ∧
      Bound (fun j => classOf cl.threshold (occ j)) w s'.sdf.getValueOrDefault := by
  have hlen : 0 < w * indexNorm o := by have := one_le_indexNorm o hne; positivity
  unfold visit
  dsimp only
  by_cases hskip : D ≤ |v| + w * indexNorm o
  · rw [if_pos hskip]; exact ⟨s, rfl, hI, hB⟩
  rw [if_neg hskip]
  rw [not_le] at hskip
  -- the opened cell is initialised
  have hvok : CellOk (fun j => classOf cl.threshold (occ j)) D w x v := by
    rcases hv with h | h
    · rw [h, abs_of_pos hD] at hskip; linarith
    · exact h
  clear hv
  have htouch : ∀ i, |x i - (x i + o i)| ≤ 1 := fun i => by rw [show x i - (x i + o i) = -o i by omega, abs_neg]; exact ho i
  have htouch' : ∀ i, |(x i + o i) - x i| ≤ 1 := fun i => by rw [show x i + o i - x i = o i by omega]; exact ho i
  have hnorm : (indexNorm fun i => x i - (x i + o i)) = indexNorm o := by
    rw [← indexNorm_neg o]; congr 1; funext i; omega
  have hnorm' : (indexNorm fun i => (x i + o i) - x i) = indexNorm o := by congr 1; funext i; omega
  have hhalf : (1 / 2 * w * indexNorm o) ≤ halfMaxNeighborDistanceOffset w := by
    unfold halfMaxNeighborDistanceOffset
    have := mul_le_mul_of_nonneg_left (indexNorm_le_sqrt3 o ho) hw.le
    linarith
  -- propagation without and with crossing the surface
  have hsame : ∀ c, Near (fun j => classOf cl.threshold (occ j)) w c x |v| →
      Near (fun j => classOf cl.threshold (occ j)) w c (fun i => x i + o i) (|v| + w * indexNorm o) := fun c h => h.step hw o
  have hcross : classOf cl.threshold (occ x) = .free →
      Near (fun j => classOf cl.threshold (occ j)) w .free (fun i => x i + o i) (1 / 2 * w * indexNorm o) := fun h => by
    have := Near.touching (cls := fun j => classOf cl.threshold (occ j)) hw (fun i => x i + o i) x h htouch'
    rwa [hnorm'] at this
  have hvB' : classOf cl.threshold (occ x) = .free → classOf cl.threshold (occ fun i => x i + o i) = .occupied → v ≤ 1 / 2 * w * indexNorm o := by
    intro h1 h2
    have := hvB (fun i => x i + o i) h1 h2 htouch
    rwa [hnorm] at this
  clear hvB htouch htouch' hnorm hnorm'
  generalize hn : (fun i => x i + o i) = n at *
  generalize hlenE : w * indexNorm o = len at *
  have hhalfE : 1 / 2 * w * indexNorm o = len / 2 := by rw [← hlenE]; ring
  rw [hhalfE] at hhalf hcross hvB'
  by_cases hun : s.sdf.defaultValue = s.sdf.getValueOrDefault n
  · -- the neighbour is uninitialised
    have hnD : s.sdf.getValueOrDefault n = D := by rw [← hun, hI.dv]
    cases hcn : classOf cl.threshold (occ n) with
    | unobserved =>
      rw [if_pos ⟨hun, by rw [(is_class cl _).2.2, hcn]; rfl⟩]
      obtain ⟨h1, h2⟩ := same_spec hI hB n id rfl
      exact ⟨_, rfl, h1, h2⟩
    | occupied =>
      have hNV : (if s.sdf.defaultValue = s.sdf.getValueOrDefault n ∧ cl.is (occ n) OccId.occupied.toMask = true then
          -s.sdf.defaultValue else s.sdf.getValueOrDefault n) = -D := by
        rw [if_pos ⟨hun, by rw [(is_class cl _).2.1, hcn]; rfl⟩, hI.dv]
      rw [if_neg (by rw [(is_class cl _).2.2, hcn]; simp), hNV]
      have hneg : -D < 0 := by linarith
      rcases hvok with ⟨hx, hv0, hvD, hvn⟩ | ⟨hx, hv0, hvD, hvn⟩
      · rw [if_pos (by simp [hD, hv0.le]), if_pos hneg]
        have hle := hvB' hx hcn
        rw [abs_of_pos hv0] at hskip ⊢
        rw [if_pos (by linarith)]
        refine store_spec hS hI hB n (-D) (len - v) _ Iff.rfl (by linarith) (Or.inr ⟨hcn, hneg, le_rfl, ?_⟩)
        refine (hcross hx).mono (le_min ?_ (by linarith))
        rw [abs_neg, abs_of_pos hD]; linarith
      · rw [if_neg (by simp [hD, hv0])]
        refine store_spec hS hI hB n (-D) (|v| + len) _ Iff.rfl (by positivity) (Or.inr ⟨hcn, hneg, le_rfl, ?_⟩)
        rw [abs_neg, abs_of_pos hD, min_eq_right hskip.le]
        exact hsame _ hvn
    | free =>
      have hNV : (if s.sdf.defaultValue = s.sdf.getValueOrDefault n ∧ cl.is (occ n) OccId.occupied.toMask = true then
          -s.sdf.defaultValue else s.sdf.getValueOrDefault n) = D := by
        rw [if_neg (by rw [(is_class cl _).2.1, hcn]; simp), hnD]
      rw [if_neg (by rw [(is_class cl _).2.2, hcn]; simp), hNV]
      rcases hvok with ⟨hx, hv0, hvD, hvn⟩ | ⟨hx, hv0, hvD, hvn⟩
      · rw [if_neg (by rw [decide_eq_false (not_lt.2 hD.le), decide_eq_false (not_lt.2 hv0.le)]; decide)]
        refine store_spec hS hI hB n D (|v| + len) _ Iff.rfl (by positivity) (Or.inl ⟨hcn, hD, hnD.symm, ?_, ?_⟩)
        · rw [abs_of_pos hD, min_eq_right hskip.le]; exact hskip
        · rw [abs_of_pos hD, min_eq_right hskip.le]; exact hsame _ hvn
      · rw [if_pos (by rw [decide_eq_false (not_lt.2 hD.le), decide_eq_true hv0]; decide), if_neg (not_lt.2 hD.le)]
        obtain ⟨h1, h2⟩ := same_spec hI hB n (fun _ => D) hnD.symm
        exact ⟨_, rfl, h1, h2⟩
  · -- the neighbour is initialised
    have hNV : (if s.sdf.defaultValue = s.sdf.getValueOrDefault n ∧ cl.is (occ n) OccId.occupied.toMask = true then
        -s.sdf.defaultValue else s.sdf.getValueOrDefault n) = s.sdf.getValueOrDefault n := if_neg (fun h => hun h.1)
    rw [if_neg (fun h => hun h.1), hNV]
    have hnok : CellOk (fun j => classOf cl.threshold (occ j)) D w n (s.sdf.getValueOrDefault n) := by
      rcases hI.cell n with h | h
      · rw [← hI.dv] at h; exact absurd h.symm hun
      · exact h
    rcases hnok with ⟨hcn, hn0, hnD, hnn⟩ | ⟨hcn, hn0, hnD, hnn⟩
    · rcases hvok with ⟨hx, hv0, hvD, hvn⟩ | ⟨hx, hv0, hvD, hvn⟩
      · rw [if_neg (by rw [decide_eq_false (not_lt.2 hn0.le), decide_eq_false (not_lt.2 hv0.le)]; decide)]
        refine store_spec hS hI hB n _ (|v| + len) _ Iff.rfl (by positivity) (Or.inl ⟨hcn, hn0, rfl, ?_, ?_⟩)
        · exact lt_of_le_of_lt (min_le_right _ _) hskip
        · rcases min_choice |s.sdf.getValueOrDefault n| (|v| + len) with h | h <;> rw [h]
          · exact hnn
          · exact hsame _ hvn
      · rw [if_pos (by rw [decide_eq_false (not_lt.2 hn0.le), decide_eq_true hv0]; decide), if_neg (not_lt.2 hn0.le)]
        obtain ⟨h1, h2⟩ := same_spec hI hB n (fun _ => s.sdf.getValueOrDefault n) rfl
        exact ⟨_, rfl, h1, h2⟩
    · rcases hvok with ⟨hx, hv0, hvD, hvn⟩ | ⟨hx, hv0, hvD, hvn⟩
      · rw [if_pos (by simp [hn0, hv0.le]), if_pos hn0]
        have hle := hvB' hx hcn
        rw [abs_of_pos hv0] at hskip ⊢
        rw [if_pos (by linarith)]
        refine store_spec hS hI hB n _ (len - v) _ Iff.rfl (by linarith) (Or.inr ⟨hcn, hn0, hnD, ?_⟩)
        rcases min_choice |s.sdf.getValueOrDefault n| (len - v) with h | h <;> rw [h]
        · exact hnn
        · exact (hcross hx).mono (by linarith)
      · rw [if_neg (by simp [hn0, hv0])]
        refine store_spec hS hI hB n _ (|v| + len) _ Iff.rfl (by positivity) (Or.inr ⟨hcn, hn0, hnD, ?_⟩)
        rcases min_choice |s.sdf.getValueOrDefault n| (|v| + len) with h | h <;> rw [h]
        · exact hnn
        · exact hsame _ hvn

/-- Opening the next cell of the queue. -/
theorem open_spec (hw : 0 < w) (hD : 0 < D) (hS : ∀ j, classOf cl.threshold (occ j) ≠ .unobserved → j ∈ S) (offsets : List (Index 3))
    (hoff : ∀ o ∈ offsets, (∀ i, |o i| ≤ 1) ∧ o ≠ fun _ => 0) (N : Nat) (s : SdfState ℝ)
    (hI : Inv (fun j => classOf cl.threshold (occ j)) D w S N s ∧ Bound (fun j => classOf cl.threshold (occ j)) w s.sdf.getValueOrDefault)
    (he : s.queue.empty = false) :
    ∃ x q1 q2 s' N', s.queue.front = some (x, q1) ∧ q1.pop = some q2 ∧
      offsets.foldlM (visit occ cl D w x (s.sdf.getValueOrDefault x)) { s with queue := q2 } = some s' ∧ N' < N ∧
      Inv (fun j => classOf cl.threshold (occ j)) D w S N' s' ∧ Bound (fun j => classOf cl.threshold (occ j)) w s'.sdf.getValueOrDefault := by
  obtain ⟨hI, hB⟩ := hI
  obtain ⟨L, hL, hm⟩ := hI.queue
  have hne : L ≠ [] := fun h => by rw [hL.empty.2 h] at he; cases he
  obtain ⟨x, q1, q2, L', h1, h2, h3, h4⟩ := hL.next hne
  have hlen := h4.length_eq
  rw [List.length_cons] at hlen
  obtain ⟨s', h5, h6, -, -⟩ := foldlM_spec (visit occ cl D w x (s.sdf.getValueOrDefault x))
    (fun s => Inv (fun j => classOf cl.threshold (occ j)) D w S (N - 1) s ∧ Bound (fun j => classOf cl.threshold (occ j)) w s.sdf.getValueOrDefault)
    (fun _ _ => True) (fun _ _ => True) (fun _ => trivial) (fun _ _ _ _ _ => trivial) (fun _ _ _ _ _ => trivial) offsets
    { s with queue := q2 } ⟨⟨hI.dv, ⟨L', h3, by dsimp only; omega⟩, hI.cell⟩, hB⟩ (fun o ho s1 hs1 => by
      obtain ⟨s2, h7, h8, h9⟩ := visit_spec hw hD hS hs1.1 hs1.2 x _ (hI.cell x) (fun k hf hk ht => hB x k hf hk ht) o (hoff o ho).1 (hoff o ho).2
      exact ⟨s2, h7, ⟨h8, h9⟩, trivial, trivial⟩)
  exact ⟨x, q1, q2, s', N - 1, h1, h2, h5, by omega, h6.1, h6.2⟩

end QuasiSdf

/-- The offsets to the 26 neighbours. -/
theorem neighbor_offsets : ∃ offsets, generateIndexOffsets 3 .anyDisjoint = some offsets ∧
    ∀ o ∈ offsets, (∀ i, |o i| ≤ 1) ∧ o ≠ fun _ => 0 := by
  obtain ⟨L, h1, h2, -⟩ := C48_offsets (d := 3) (by decide) .anyDisjoint
  refine ⟨L, h1, fun o ho => ?_⟩
  have := (h2 o).1 ho
  obtain ⟨⟨k, hk⟩, h3⟩ := this
  refine ⟨fun i => (meet_iff _).1 (hk.1 i), fun h0 => h3 ?_⟩
  subst h0
  unfold ContactDim
  decide

theorem sdfQueue_holds (D w : ℝ) (hD : 0 < D) (hw : 0 < w) : (sdfQueue D w).Holds [] := by
  refine BucketQueue.Holds.create _ _ ?_ hD
  have : 0 < ⌈D / w⌉ := Int.ceil_pos.2 (div_pos hD hw)
  omega

/-- Everything `QuasiSdf.generate` guarantees, in terms of the invariant. -/
theorem QuasiSdf.generate_spec (D : ℝ) (hD : 0 < D) (cl : OccClassifier) (m : HashedWaveletOctree) (hm : m.Reachable)
    (hw : (0 : ℝ) < m.config.minCellWidth) :
    ∃ r : DenseBlockHash 3 4 ℝ, (∃ N, ∀ fuel ≥ N, QuasiSdf.generate D cl m fuel = some r) ∧ r.defaultValue = D ∧
      (∀ j, r.getValueOrDefault j = D ∨ QuasiSdf.CellOk (sdfClass m cl) D m.config.minCellWidth j (r.getValueOrDefault j)) ∧
      QuasiSdf.Bound (sdfClass m cl) m.config.minCellWidth r.getValueOrDefault := by
  obtain ⟨offsets, ho1, ho2⟩ := neighbor_offsets
  obtain ⟨S, hS⟩ := observed_finite hm cl
  obtain ⟨s1, ⟨N1, hN1⟩, ⟨N2, hP⟩, hQ⟩ := sdfSeed_spec cl (QuasiSdf.seedCell m.getCellValue cl m.config.minCellWidth)
    (fun s => ∃ N, QuasiSdf.Inv (sdfClass m cl) D m.config.minCellWidth S N s)
    (fun s s' => ∀ i, s'.sdf.getValueOrDefault i ≤ s.sdf.getValueOrDefault i)
    (fun n j s => sdfClass m cl j = .free → ∀ k, NodeRegion n k → (∀ i, |j i - k i| ≤ 1) →
        s.sdf.getValueOrDefault j ≤ 1 / 2 * m.config.minCellWidth * indexNorm fun i => j i - k i)
    (fun _ _ => le_rfl) (fun a b c h1 h2 i => (h2 i).trans (h1 i)) (fun n j s s' h1 h2 h3 k h4 h5 => (h1 j).trans (h2 h3 k h4 h5))
    m.forEachLeaf ⟨.create D, sdfQueue D m.config.minCellWidth⟩
    ⟨_, rfl, ⟨[], sdfQueue_holds D _ hD hw, le_rfl⟩, fun j => Or.inl (DenseBlockHash.create_getValueOrDefault D j)⟩
    (fun e he ho j hj s hs => QuasiSdf.seedCell_spec hw hD e.1 (fun k hk => leaf_occupied hm cl e he ho k hk) j hj s hs)
  have hB : QuasiSdf.Bound (sdfClass m cl) m.config.minCellWidth s1.sdf.getValueOrDefault := by
    intro j k hj hk hjk
    obtain ⟨e, he, heo, hr⟩ := occupied_leaf hm cl k hk
    refine hQ e he heo j (fun i => ?_) hj k hr hjk
    have h1 := (C03_corners_span_region e.1 k).2 hr i
    have h2 := hjk i
    rw [abs_le] at h2
    omega
  obtain ⟨s2, h3, N3, h4, h5⟩ := sdfPropagate_spec offsets (QuasiSdf.visit m.getCellValue cl D m.config.minCellWidth)
    (fun N s => QuasiSdf.Inv (sdfClass m cl) D m.config.minCellWidth S N s ∧
      QuasiSdf.Bound (sdfClass m cl) m.config.minCellWidth s.sdf.getValueOrDefault)
    (fun N s hI he => QuasiSdf.open_spec hw hD hS offsets ho2 N s hI he) N2 s1 ⟨hP, hB⟩
  refine ⟨s2.sdf, ⟨max N1 N2, fun fuel hf => ?_⟩, h4.dv, h4.cell, h5⟩
  unfold QuasiSdf.generate
  simp only [ho1, hN1 fuel (le_trans (le_max_left _ _) hf), Option.bind_eq_bind, Option.bind_some]
  exact h3 fuel (le_trans (le_max_right _ _) hf)

end Wavemap
