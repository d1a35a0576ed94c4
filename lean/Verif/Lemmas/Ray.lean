import Mathlib.Algebra.Order.BigOperators.Group.Finset
import Mathlib.Algebra.Order.Field.Basic
import Mathlib.Data.Fintype.Basic
import Mathlib.Data.Finset.Max
import Mathlib.Tactic.Linarith
import Mathlib.Tactic.Ring
import Mathlib.Tactic.NormNum
import Mathlib.Tactic.Positivity
import Verif.Model.Iterate
/-!
# The stepping argument behind C30

Both constructors produce a ray whose `i`-th axis has to cross `n i` cell boundaries, the `c`-th of them at ray parameter
`tInit i + c * tStep i`.
-/
namespace Wavemap
variable {d : Nat}

/-- `Good` separates the boundary crossings that belong to the ray from those beyond its end. -/
structure Walk (r : Ray d) (n : Fin d → Nat) (Good : ℚ → Prop) : Prop where
  stop : ∀ i, r.stop i = r.start i + r.signs i * n i
  len : r.lengthInSteps = ∑ i, n i + 1
  good : ∀ i (c : Nat), c < n i ↔ Good (r.tInit i + c * r.tStep i)
  down : ∀ s t, s ≤ t → Good t → Good s
  le_one : ∀ t, Good t → t ≤ 1
  init_nonneg : ∀ i, 0 ≤ r.tInit i
  step_nonneg : ∀ i, 0 ≤ r.tStep i
  sign : ∀ i, 0 < n i → r.signs i = 1 ∨ r.signs i = -1

/-- Invariant of the iteration; `c i` boundaries have been crossed along axis `i`, the last one at parameter `T`. -/
structure WInv (r : Ray d) (n : Fin d → Nat) (cur : Index d) (c : Fin d → Nat) (T : ℚ) : Prop where
  cur : ∀ i, cur i = r.start i + r.signs i * c i
  le : ∀ i, c i ≤ n i
  T0 : 0 ≤ T
  T1 : T ≤ 1
  next : ∀ i, T ≤ r.tInit i + c i * r.tStep i
  prev : ∀ i, 0 < c i → r.tInit i + ((c i : ℚ) - 1) * r.tStep i ≤ T

theorem WInv.init {r : Ray d} {n Good} (w : Walk r n Good) : WInv r n r.start (fun _ => 0) 0 where
  cur i := by simp
  le i := Nat.zero_le _
  T0 := le_refl _
  T1 := by norm_num
  next i := by simpa using w.init_nonneg i
  prev i h := absurd h (lt_irrefl _)

theorem WInv.step {r : Ray d} {n Good} (w : Walk r n Good) {cur c T} (h : WInv r n cur c T)
    (hlt : ∑ i, c i < ∑ i, n i) (k : Fin d) (hk : IsMinCoeff (fun i => r.tInit i + c i * r.tStep i) k) :
    c k < n k ∧ WInv r n (fun i => if i = k then cur i + r.signs i else cur i)
      (fun i => if i = k then c i + 1 else c i) (r.tInit k + c k * r.tStep k) := by
  obtain ⟨j, _, hj⟩ := Finset.exists_lt_of_sum_lt hlt
  have hg := w.down _ _ (hk j) ((w.good j _).1 hj)
  have hck : c k < n k := (w.good k _).2 hg
  refine ⟨hck, ⟨fun i => ?_, fun i => ?_, ?_, w.le_one _ hg, fun i => ?_, fun i hi => ?_⟩⟩
  · by_cases e : i = k
    · subst e; simp only [if_true]; rw [h.cur]; push_cast; ring
    · simp only [if_neg e]; exact h.cur i
  · by_cases e : i = k
    · subst e; simp only [if_true]; omega
    · simp only [if_neg e]; exact h.le i
  · have := w.init_nonneg k; have := w.step_nonneg k; positivity
  · by_cases e : i = k
    · subst e; simp only [if_true]; push_cast
      have := w.step_nonneg i
      linarith
    · simp only [if_neg e]; exact hk i
  · by_cases e : i = k
    · subst e; simp only [if_true] at *; push_cast; linarith
    · simp only [if_neg e] at *
      exact (h.prev i hi).trans ((h.next k))

/-- Specification of one step of a walk towards `stop`: along one axis, by one, closer to the end. -/
def StepTowards (stop a b : Index d) : Prop :=
  ∃ k, (∀ i, i ≠ k → b i = a i) ∧ |b k - a k| = 1 ∧ |stop k - b k| + 1 = |stop k - a k|

theorem sum_ite_succ (c : Fin d → Nat) (k : Fin d) :
    ∑ i, (if i = k then c i + 1 else c i) = ∑ i, c i + 1 := by
  have : ∀ i, (if i = k then c i + 1 else c i) = c i + if i = k then 1 else 0 := by
    intro i; split <;> rfl
  simp only [this, Finset.sum_add_distrib, Finset.sum_ite_eq', Finset.mem_univ, if_true]

theorem walk_visit {r : Ray d} {n Good} (w : Walk r n Good) (s : RayState d) (l : List (Index d))
    (hv : RayVisit r s l) (c : Fin d → Nat) (T : ℚ) (h : WInv r n s.current c T)
    (ht : ∀ i, s.tNext i = r.tInit i + c i * r.tStep i) (hl : l.length + ∑ i, c i = ∑ i, n i + 1) :
    (l ≠ [] → l.head? = some s.current ∧ l.getLast? = some r.stop) ∧
    l.IsChain (StepTowards r.stop) ∧ ∀ cell ∈ l, ∃ c T, WInv r n cell c T := by
  induction hv generalizing c T with
  | done s => exact ⟨fun h => absurd rfl h, List.IsChain.nil, by simp⟩
  | last s =>
    refine ⟨fun _ => ⟨rfl, ?_⟩, List.IsChain.singleton _, fun cell hc => ?_⟩
    · simp only [List.getLast?_singleton, Option.some.injEq]
      have e : ∀ i, c i = n i := by
        intro i
        have hs : ∑ i, c i = ∑ i, n i := by simp at hl; omega
        exact (Finset.sum_eq_sum_iff_of_le fun i _ => h.le i).1 hs i (Finset.mem_univ i)
      funext i
      rw [h.cur, w.stop, e]
    · simp only [List.mem_singleton] at hc
      exact ⟨c, T, hc ▸ h⟩
  | next s k l hk hne hv ih =>
    have hpos : 0 < l.length := List.length_pos_iff.2 hne
    have hlt : ∑ i, c i < ∑ i, n i := by simp at hl; omega
    have hk' : IsMinCoeff (fun i => r.tInit i + c i * r.tStep i) k := by
      intro j; have := hk j; rw [ht, ht] at this; exact this
    obtain ⟨hck, hstep⟩ := h.step w hlt k hk'
    obtain ⟨i1, i2, i3⟩ := ih _ _ hstep (by
        intro i
        show (if i = k then s.tNext i + r.tStep i else s.tNext i) = _
        by_cases e : i = k
        · subst e; simp only [if_true, ht]; push_cast; ring
        · simp only [if_neg e, ht])
      (by rw [sum_ite_succ]; simp at hl; omega)
    obtain ⟨j1, j2⟩ := i1 hne
    refine ⟨fun _ => ⟨rfl, ?_⟩, ?_, ?_⟩
    · obtain ⟨x, l', rfl⟩ := List.exists_cons_of_ne_nil hne
      rw [List.getLast?_cons_cons]; exact j2
    · obtain ⟨x, l', rfl⟩ := List.exists_cons_of_ne_nil hne
      simp only [List.head?_cons, Option.some.injEq] at j1
      subst j1
      refine List.IsChain.cons_cons ⟨k, fun i hi => ?_, ?_, ?_⟩ i2
      · show (if i = k then _ else _) = _; rw [if_neg hi]
      · show |(if k = k then s.current k + r.signs k else s.current k) - s.current k| = 1
        rw [if_pos rfl]
        rcases w.sign k (by omega) with e | e <;> rw [e] <;> simp
      · show |r.stop k - (if k = k then s.current k + r.signs k else s.current k)| + 1 = |r.stop k - s.current k|
        rw [if_pos rfl, w.stop, h.cur]
        have hk2 : (c k : Int) < n k := by exact_mod_cast hck
        rcases w.sign k (by omega) with e | e <;> rw [e]
        · rw [abs_of_nonneg (by omega), abs_of_nonneg (by omega)]; ring
        · rw [abs_of_nonpos (by omega), abs_of_nonpos (by omega)]; ring
    · intro cell hc
      rcases List.mem_cons.1 hc with rfl | hc
      · exact ⟨c, T, h⟩
      · exact i3 cell hc

/-- The same for a visit that need not reach the end of the walk. -/
theorem walk_visit_le {r : Ray d} {n Good} (w : Walk r n Good) (s : RayState d) (l : List (Index d))
    (hv : RayVisit r s l) (c : Fin d → Nat) (T : ℚ) (h : WInv r n s.current c T)
    (ht : ∀ i, s.tNext i = r.tInit i + c i * r.tStep i) (hl : l.length + ∑ i, c i ≤ ∑ i, n i + 1) :
    (l ≠ [] → l.head? = some s.current) ∧ l.IsChain (StepTowards r.stop) ∧ (∀ cell ∈ l, ∃ c T, WInv r n cell c T) ∧
    ∀ last, l.getLast? = some last → ∃ c' T', WInv r n last c' T' ∧ ∑ i, c' i + 1 = ∑ i, c i + l.length := by
  induction hv generalizing c T with
  | done s => exact ⟨fun h => absurd rfl h, List.IsChain.nil, by simp, by simp⟩
  | last s =>
    refine ⟨fun _ => rfl, List.IsChain.singleton _, fun cell hc => ?_, fun last hlast => ?_⟩
    · simp only [List.mem_singleton] at hc
      exact ⟨c, T, hc ▸ h⟩
    · simp only [List.getLast?_singleton, Option.some.injEq] at hlast
      exact ⟨c, T, hlast ▸ h, by simp⟩
  | next s k l hk hne hv ih =>
    have hpos : 0 < l.length := List.length_pos_iff.2 hne
    have hlt : ∑ i, c i < ∑ i, n i := by simp at hl; omega
    have hk' : IsMinCoeff (fun i => r.tInit i + c i * r.tStep i) k := by
      intro j; have := hk j; rw [ht, ht] at this; exact this
    obtain ⟨hck, hstep⟩ := h.step w hlt k hk'
    obtain ⟨i1, i2, i3, i4⟩ := ih _ _ hstep (by
        intro i
        show (if i = k then s.tNext i + r.tStep i else s.tNext i) = _
        by_cases e : i = k
        · subst e; simp only [if_true, ht]; push_cast; ring
        · simp only [if_neg e, ht])
      (by rw [sum_ite_succ]; simp at hl; omega)
    have j1 := i1 hne
    refine ⟨fun _ => rfl, ?_, ?_, ?_⟩
    · obtain ⟨x, l', rfl⟩ := List.exists_cons_of_ne_nil hne
      simp only [List.head?_cons, Option.some.injEq] at j1
      subst j1
      refine List.IsChain.cons_cons ⟨k, fun i hi => ?_, ?_, ?_⟩ i2
      · show (if i = k then _ else _) = _; rw [if_neg hi]
      · show |(if k = k then s.current k + r.signs k else s.current k) - s.current k| = 1
        rw [if_pos rfl]
        rcases w.sign k (by omega) with e | e <;> rw [e] <;> simp
      · show |r.stop k - (if k = k then s.current k + r.signs k else s.current k)| + 1 = |r.stop k - s.current k|
        rw [if_pos rfl, w.stop, h.cur]
        have hk2 : (c k : Int) < n k := by exact_mod_cast hck
        rcases w.sign k (by omega) with e | e <;> rw [e]
        · rw [abs_of_nonneg (by omega), abs_of_nonneg (by omega)]; ring
        · rw [abs_of_nonpos (by omega), abs_of_nonpos (by omega)]; ring
    · intro cell hc
      rcases List.mem_cons.1 hc with rfl | hc
      · exact ⟨c, T, h⟩
      · exact i3 cell hc
    · intro last hlast
      obtain ⟨x, l', rfl⟩ := List.exists_cons_of_ne_nil hne
      rw [List.getLast?_cons_cons] at hlast
      obtain ⟨c', T', h1, h2⟩ := i4 last hlast
      refine ⟨c', T', h1, ?_⟩
      rw [h2, sum_ite_succ, List.length_cons (a := s.current)]
      omega

/-- A visit depends only on the ray's steps. -/
theorem RayVisit.congr {r r' : Ray d} (h1 : r'.signs = r.signs) (h2 : r'.tStep = r.tStep) {s l} (h : RayVisit r s l) : RayVisit r' s l := by
  induction h with
  | done s => exact .done s
  | last s => exact .last s
  | next s k l hk hne _ ih =>
    refine .next s k l hk hne ?_
    have e : rayNext r' k s = rayNext r k s := by unfold rayNext; rw [h1, h2]
    rw [e]; exact ih

/-- The L1 distance to the end decreases along a walk, hence no cell is visited twice. -/
def l1 (a b : Index d) : Int := ∑ i, |a i - b i|

theorem StepTowards.l1_lt {stop a b : Index d} (h : StepTowards stop a b) : l1 stop b < l1 stop a := by
  obtain ⟨k, h1, _, h3⟩ := h
  unfold l1
  refine Finset.sum_lt_sum (fun i _ => ?_) ⟨k, Finset.mem_univ k, by omega⟩
  by_cases e : i = k
  · subst e; omega
  · rw [h1 i e]

theorem chain_nodup (stop : Index d) (l : List (Index d)) (h : l.IsChain (StepTowards stop)) : l.Nodup := by
  have h2 : l.IsChain (fun a b => l1 stop b < l1 stop a) := h.imp fun _ _ => StepTowards.l1_lt
  haveI : Trans (fun a b : Index d => l1 stop b < l1 stop a) (fun a b => l1 stop b < l1 stop a)
      (fun a b => l1 stop b < l1 stop a) := ⟨fun h1 h2 => lt_trans h2 h1⟩
  have h3 := List.isChain_iff_pairwise.1 h2
  exact h3.imp fun {a b} hab => by rintro rfl; exact lt_irrefl _ hab

theorem exists_minCoeff (hd : 0 < d) (t : Point d) : ∃ k, IsMinCoeff t k := by
  haveI : Nonempty (Fin d) := ⟨⟨0, hd⟩⟩
  obtain ⟨k, _, hk⟩ := Finset.exists_min_image Finset.univ t Finset.univ_nonempty
  exact ⟨k, fun j => hk j (Finset.mem_univ j)⟩

theorem exists_visit (hd : 0 < d) (r : Ray d) (m : Nat) (s : RayState d) :
    ∃ l, l.length = m + 1 ∧ RayVisit r s l := by
  induction m generalizing s with
  | zero => exact ⟨[s.current], rfl, RayVisit.last s⟩
  | succ m ih =>
    obtain ⟨k, hk⟩ := exists_minCoeff hd s.tNext
    obtain ⟨l, hl, hv⟩ := ih (rayNext r k s)
    exact ⟨s.current :: l, by simp [hl], RayVisit.next s k l hk (by rintro rfl; simp at hl) hv⟩

end Wavemap
