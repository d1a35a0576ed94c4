import Mathlib.Data.List.Nodup
import Mathlib.Data.Fin.VecNotation
import Mathlib.Data.Fintype.Basic
import Mathlib.Algebra.Order.BigOperators.Group.Finset
import Mathlib.Algebra.Order.Field.Basic
import Mathlib.Tactic.Linarith
import Mathlib.Tactic.FieldSimp
import Mathlib.Tactic.FinCases
import Mathlib.Tactic.NormNum
import Mathlib.Tactic.Ring
import Mathlib.Tactic.Positivity
import Verif.Model.Iterate
/-!
# C29, C30: grid and ray iteration
-/
namespace Wavemap

/-! ## C29: grid iteration -/

/-- The integers `lo..hi`. -/
def intRange (lo hi : Int) : List Int := (List.range (hi - lo + 1).toNat).map fun (k : Nat) => lo + (k : Int)

theorem mem_intRange (lo hi x : Int) : x ∈ intRange lo hi ↔ lo ≤ x ∧ x ≤ hi := by
  unfold intRange
  rw [List.mem_map]
  constructor
  · rintro ⟨k, hk, rfl⟩
    rw [List.mem_range] at hk
    omega
  · intro h
    exact ⟨(x - lo).toNat, by rw [List.mem_range]; omega, by omega⟩

theorem intRange_pairwise (lo hi : Int) : (intRange lo hi).Pairwise (· < ·) := by
  unfold intRange
  rw [List.pairwise_map]
  refine List.pairwise_lt_range.imp fun h => ?_
  omega

/-- The box as a list, dimension 0 running fastest. -/
def boxList : List (Int × Int) → List (List Int)
  | [] => [[]]
  | (lo, hi) :: b => (boxList b).flatMap fun t => (intRange lo hi).map (· :: t)

/-- Specification: the order in which the box is visited: by the last coordinate first, then the one before, … -/
def GridLt : List Int → List Int → Prop
  | x :: xs, y :: ys => GridLt xs ys ∨ (xs = ys ∧ x < y)
  | _, _ => False

/-- Coordinates within bounds. -/
def InBounds : List (Int × Int) → List Int → Prop
  | [], [] => True
  | (lo, hi) :: b, x :: xs => (lo ≤ x ∧ x ≤ hi) ∧ InBounds b xs
  | _, _ => False

theorem mem_boxList (b : List (Int × Int)) (t : List Int) : t ∈ boxList b ↔ InBounds b t := by
  induction b generalizing t with
  | nil => cases t <;> simp [boxList, InBounds]
  | cons p b ih =>
    obtain ⟨lo, hi⟩ := p
    unfold boxList
    rw [List.mem_flatMap]
    constructor
    · rintro ⟨t', h1, h2⟩
      rw [List.mem_map] at h2
      obtain ⟨x, hx, rfl⟩ := h2
      exact ⟨(mem_intRange _ _ _).1 hx, (ih t').1 h1⟩
    · cases t with
      | nil => intro h; exact h.elim
      | cons x xs =>
        rintro ⟨h1, h2⟩
        exact ⟨xs, (ih xs).2 h2, List.mem_map.2 ⟨x, (mem_intRange _ _ _).2 h1, rfl⟩⟩

theorem boxList_pairwise (b : List (Int × Int)) : (boxList b).Pairwise GridLt := by
  induction b with
  | nil => simp [boxList]
  | cons p b ih =>
    obtain ⟨lo, hi⟩ := p
    unfold boxList
    rw [List.pairwise_flatMap]
    refine ⟨fun t _ => ?_, ih.imp fun {s t} hst => ?_⟩
    · rw [List.pairwise_map]
      exact (intRange_pairwise lo hi).imp fun h => Or.inr ⟨rfl, h⟩
    · intro x hx y hy
      rw [List.mem_map] at hx hy
      obtain ⟨a, _, rfl⟩ := hx
      obtain ⟨c, _, rfl⟩ := hy
      exact Or.inl hst

theorem gridLt_irrefl (t : List Int) : ¬ GridLt t t := by
  induction t with
  | nil => exact id
  | cons x xs ih => rintro (h | h) <;> [exact ih h; exact absurd h.2 (lt_irrefl _)]

theorem boxList_nodup (b : List (Int × Int)) : (boxList b).Nodup :=
  (boxList_pairwise b).imp fun {s t} h => by rintro rfl; exact gridLt_irrefl _ h

/-- `L` is the sequence `a, next a, next (next a), …` and stops just before `e`. -/
def Follows (f : List Int → List Int) : List (List Int) → List Int → List Int → Prop
  | [], a, e => a = e
  | x :: L, a, e => x = a ∧ Follows f L (f a) e

theorem Follows.append {f : List Int → List Int} {L1 L2 : List (List Int)} {a m e}
    (h1 : Follows f L1 a m) (h2 : Follows f L2 m e) : Follows f (L1 ++ L2) a e := by
  induction L1 generalizing a with
  | nil => cases h1; exact h2
  | cons x L ih => exact ⟨h1.1, ih h1.2⟩

theorem gridCarry_id (b : List (Int × Int)) (t : List Int) (h : InBounds b t) : gridCarry b t = t := by
  induction b generalizing t with
  | nil => cases t <;> simp [gridCarry]
  | cons p b ih =>
    obtain ⟨lo, hi⟩ := p
    cases t with
    | nil => exact h.elim
    | cons x xs =>
      cases b with
      | nil => cases xs <;> simp [gridCarry]
      | cons p2 bs =>
        cases xs with
        | nil => exact h.2.elim
        | cons y ys =>
          unfold gridCarry
          rw [if_neg (by have := h.1.2; omega), ih _ h.2]

theorem intRange_cons (lo hi : Int) (h : lo ≤ hi) : intRange lo hi = lo :: intRange (lo + 1) hi := by
  unfold intRange
  have e : (hi - lo + 1).toNat = (hi - (lo + 1) + 1).toNat + 1 := by omega
  rw [e, List.range_succ_eq_map, List.map_cons, List.map_map]
  refine congrArg₂ _ (by simp) (List.map_congr_left fun k _ => ?_)
  simp only [Function.comp]; push_cast; ring

theorem follows_row (lo hi : Int) (p : Int × Int) (bs : List (Int × Int)) (t : List Int)
    (ht : InBounds (p :: bs) t) (x : Int) (hx : x ≤ hi) :
    Follows (gridNext ((lo, hi) :: p :: bs)) ((intRange x hi).map (· :: t)) (x :: t)
      (lo :: gridNext (p :: bs) t) := by
  cases t with
  | nil => exact ht.elim
  | cons y ys =>
    generalize hk : (hi - x).toNat = k
    induction k generalizing x with
    | zero =>
      have : x = hi := by omega
      subst this
      have e : intRange x x = [x] := by
        rw [intRange_cons x x (le_refl _)]
        simp [intRange]
      rw [e]
      refine ⟨rfl, ?_⟩
      show gridNext _ _ = _
      simp only [gridNext, gridCarry]
      rw [if_pos (by omega)]
    | succ k ih =>
      rw [intRange_cons x hi hx]
      refine ⟨rfl, ?_⟩
      have e : gridNext ((lo, hi) :: p :: bs) (x :: y :: ys) = (x + 1) :: y :: ys := by
        simp only [gridNext, gridCarry]
        rw [if_neg (by omega)]
        rw [gridCarry_id _ _ ht]
      rw [e]
      exact ih (x + 1) (by omega) (by omega)

theorem follows_box (b : List (Int × Int)) (hb : b ≠ []) (hv : ∀ p ∈ b, p.1 ≤ p.2) :
    Follows (gridNext b) (boxList b) (gridBegin b) (gridEnd b) := by
  induction b with
  | nil => exact absurd rfl hb
  | cons p b ih =>
    obtain ⟨lo, hi⟩ := p
    have hle : lo ≤ hi := hv (lo, hi) (by simp)
    cases b with
    | nil =>
      simp only [boxList, List.flatMap_cons, List.flatMap_nil, List.append_nil, gridBegin, List.map_cons, List.map_nil,
        gridEnd]
      -- one dimension
      have key : ∀ k x, (hi - x).toNat = k → x ≤ hi →
          Follows (gridNext [(lo, hi)]) ((intRange x hi).map (· :: [])) [x] [hi + 1] := by
        intro k
        induction k with
        | zero =>
          intro x hk hx
          have : x = hi := by omega
          subst this
          have e : intRange x x = [x] := by rw [intRange_cons x x (le_refl _)]; simp [intRange]
          rw [e]
          exact ⟨rfl, rfl⟩
        | succ k ih =>
          intro x hk hx
          rw [intRange_cons x hi hx]
          exact ⟨rfl, ih (x + 1) (by omega) (by omega)⟩
      exact key _ lo rfl hle
    | cons p2 bs =>
      have ih := ih (by simp) fun p hp => hv p (by simp [hp])
      have hin : ∀ t ∈ boxList (p2 :: bs), InBounds (p2 :: bs) t := fun t => (mem_boxList _ _).1
      have key : ∀ L a e, (∀ t ∈ L, InBounds (p2 :: bs) t) → Follows (gridNext (p2 :: bs)) L a e →
          Follows (gridNext ((lo, hi) :: p2 :: bs)) (L.flatMap fun t => (intRange lo hi).map (· :: t))
            (lo :: a) (lo :: e) := by
        intro L
        induction L with
        | nil => intro a e _ h; cases h; exact rfl
        | cons t L ihL =>
          intro a e hall h
          obtain ⟨rfl, h2⟩ := h
          rw [List.flatMap_cons]
          exact (follows_row lo hi p2 bs t (hall t (by simp)) lo hle).append
            (ihL _ _ (fun t ht => hall t (by simp [ht])) h2)
      exact key _ _ _ hin ih

theorem gridVisit_of_follows (b : List (Int × Int)) (stop : List Int) (L : List (List Int)) (a : List Int)
    (h : Follows (gridNext b) L a stop) (hne : ∀ t ∈ L, t ≠ stop) (fuel : Nat) (hf : L.length ≤ fuel) :
    gridVisit b stop fuel a = some L := by
  induction L generalizing a fuel with
  | nil => cases h; unfold gridVisit; simp
  | cons x L ih =>
    obtain ⟨rfl, h2⟩ := h
    cases fuel with
    | zero => simp at hf
    | succ fuel =>
      unfold gridVisit
      rw [if_neg (hne x (by simp))]
      dsimp only
      rw [ih _ h2 (fun t ht => hne t (by simp [ht])) fuel (by simpa using hf)]
      rfl

theorem gridEnd_not_mem (b : List (Int × Int)) (hb : b ≠ []) : ¬ InBounds b (gridEnd b) := by
  induction b with
  | nil => exact absurd rfl hb
  | cons p b ih =>
    obtain ⟨lo, hi⟩ := p
    cases b with
    | nil => simp only [gridEnd, InBounds]; omega
    | cons p2 bs => exact fun h => ih (by simp) h.2

theorem inBounds_ofFn {d : Nat} (mn mx idx : Index d) :
    InBounds (gridBounds mn mx) (List.ofFn idx) ↔ ∀ i, mn i ≤ idx i ∧ idx i ≤ mx i := by
  unfold gridBounds
  induction d with
  | zero => simp [InBounds]
  | succ d ih =>
    rw [List.ofFn_succ, List.ofFn_succ]
    show (_ ∧ _) ↔ _
    rw [ih (fun i => mn i.succ) (fun i => mx i.succ) (fun i => idx i.succ), Fin.forall_fin_succ]

theorem inBounds_length (b : List (Int × Int)) (t : List Int) (h : InBounds b t) : t.length = b.length := by
  induction b generalizing t with
  | nil => cases t <;> simp_all [InBounds]
  | cons p b ih =>
    cases t with
    | nil => exact h.elim
    | cons x xs => simp [ih xs h.2]

/-- **C29** Iterating over a grid with `min ≤ max` (in any positive dimension) terminates, visits exactly the indices of
the closed box, each once, in lexicographic order with dimension 0 running fastest. -/
theorem C29_grid_iteration {d : Nat} (hd : 0 < d) (mn mx : Index d) (hv : ∀ i, mn i ≤ mx i) :
    ∃ L : List (List Int),
      (∃ n, ∀ fuel ≥ n, gridVisit (gridBounds mn mx) (gridEnd (gridBounds mn mx)) fuel (gridBegin (gridBounds mn mx))
        = some L) ∧
      (∀ t ∈ L, ∃ idx : Index d, t = List.ofFn idx) ∧
      (∀ idx : Index d, List.ofFn idx ∈ L ↔ ∀ i, mn i ≤ idx i ∧ idx i ≤ mx i) ∧
      L.Nodup ∧ L.Pairwise GridLt := by
  have hne : gridBounds mn mx ≠ [] := by
    unfold gridBounds; intro h; have := congrArg List.length h; simp at this; omega
  have hv' : ∀ p ∈ gridBounds mn mx, p.1 ≤ p.2 := by
    intro p hp
    unfold gridBounds at hp
    rw [List.mem_ofFn] at hp
    obtain ⟨i, rfl⟩ := hp
    exact hv i
  refine ⟨boxList (gridBounds mn mx), ⟨(boxList (gridBounds mn mx)).length, fun fuel hf => ?_⟩, fun t ht => ?_,
    fun idx => ?_, boxList_nodup _, boxList_pairwise _⟩
  · refine gridVisit_of_follows _ _ _ _ (follows_box _ hne hv') (fun t ht => ?_) fuel hf
    rintro rfl
    exact gridEnd_not_mem _ hne ((mem_boxList _ _).1 ht)
  · have hl := inBounds_length _ _ ((mem_boxList _ _).1 ht)
    have hl' : t.length = d := by rw [hl]; simp [gridBounds]
    subst hl'
    exact ⟨fun i => t[i], (List.ofFn_getElem (xs := t)).symm⟩
  · rw [mem_boxList, inBounds_ofFn]

/-- A grid is also empty, as expected, when only its last dimension is empty by one. -/
theorem C29_empty_last (b : List (Int × Int)) (lo : Int) (fuel : Nat) :
    gridVisit (b ++ [(lo, lo - 1)]) (gridEnd (b ++ [(lo, lo - 1)])) fuel (gridBegin (b ++ [(lo, lo - 1)])) = some [] := by
  have : gridEnd (b ++ [(lo, lo - 1)]) = gridBegin (b ++ [(lo, lo - 1)]) := by
    induction b with
    | nil => simp [gridEnd, gridBegin]
    | cons p b ih =>
      obtain ⟨l, h⟩ := p
      cases b with
      | nil => simp [gridEnd, gridBegin]
      | cons p2 bs =>
        show l :: gridEnd (p2 :: bs ++ [(lo, lo - 1)]) = l :: gridBegin (p2 :: bs ++ [(lo, lo - 1)])
        rw [ih]
  rw [this]
  unfold gridVisit; simp

/-- **C29, necessity of `min ≤ max`** A grid that is empty in another dimension is not visited zero times: the
iterator walks over indices outside of the box. -/
theorem C29_empty_first_fails :
    gridVisit [(0, -1), (0, 1)] (gridEnd [(0, -1), (0, 1)]) 10 (gridBegin [(0, -1), (0, 1)]) = some [[0, 0], [0, 1]] := by
  decide

/-- Non-vacuity of `C29_grid_iteration`. -/
example : gridVisit (gridBounds ![-1, 5] ![1, 6]) (gridEnd (gridBounds ![-1, 5] ![1, 6])) 6
    (gridBegin (gridBounds ![-1, 5] ![1, 6]))
    = some [[-1, 5], [0, 5], [1, 5], [-1, 6], [0, 6], [1, 6]] := by decide

end Wavemap
