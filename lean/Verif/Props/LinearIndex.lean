import Verif.Props.NodeIndex
/-!
# C05, C06, C08, C09 – linear indices, block decomposition, traversal offsets, node counts
-/
namespace Wavemap
open NdtreeIndex
variable {d : Nat}

/-! ## C05 Linear index bijection -/

theorem powSequence_eq (s n : Nat) : powSequence s n = s ^ n := by
  induction n with
  | zero => rfl
  | succ n ih => rw [powSequence, ih, Nat.pow_succ]

theorem base_sum_digits (s n : Nat) (a : Nat → Nat) (ha : ∀ i, i < n → a i < s) :
    (List.range n).foldl (fun acc i => acc + s ^ i * a i) 0 < s ^ n ∧
      ∀ k, k < n → (List.range n).foldl (fun acc i => acc + s ^ i * a i) 0 / s ^ k % s = a k := by
  induction n with
  | zero => simp
  | succ n ih =>
    rw [List.range_succ, List.foldl_append]
    simp only [List.foldl_cons, List.foldl_nil]
    obtain ⟨h1, h2⟩ := ih fun i hi => ha i (by omega)
    generalize (List.range n).foldl (fun acc i => acc + s ^ i * a i) 0 = t at *
    have han := ha n (by omega)
    have hs : 0 < s := by omega
    constructor
    · have : s ^ n * (a n + 1) ≤ s ^ n * s := Nat.mul_le_mul_left _ han
      rw [Nat.pow_succ]; rw [Nat.mul_add] at this; omega
    · intro k hk
      rcases Nat.lt_or_eq_of_le (Nat.le_of_lt_succ hk) with hk' | rfl
      · have e : s ^ n * a n = s ^ k * (s * (s ^ (n - k - 1) * a n)) := by
          have : s ^ n = s ^ k * (s * s ^ (n - k - 1)) := by
            rw [← Nat.pow_succ', ← Nat.pow_add]; congr 1; omega
          rw [this]; ring
        rw [e, Nat.add_mul_div_left _ _ (Nat.pow_pos hs), Nat.add_mul_mod_self_left, h2 k hk']
      · rw [Nat.add_mul_div_left _ _ (Nat.pow_pos hs), Nat.div_eq_of_lt h1, Nat.zero_add,
          Nat.mod_eq_of_lt han]

theorem base_digits_sum (s n l : Nat) :
    (List.range n).foldl (fun acc i => acc + s ^ i * (l / s ^ i % s)) 0 = l % s ^ n := by
  induction n with
  | zero => simp [Nat.mod_one]
  | succ n ih =>
    rw [List.range_succ, List.foldl_append, ih]
    simp only [List.foldl_cons, List.foldl_nil]
    rw [Nat.pow_succ, Nat.mod_mul]

theorem indexToLinearIndex_nat (s : Nat) (index : Index d) (a : Nat → Nat)
    (h : ∀ i : Fin d, index i = a i.val) :
    indexToLinearIndex s index
      = ((List.range d).foldl (fun acc i => acc + s ^ i * a i) 0 : Nat) := by
  unfold indexToLinearIndex
  have e := foldl_finRange_eq d (fun (acc : Int) i => acc + ((powSequence s i : Nat) : Int) * (a i : Int)) 0
  simp only [h]
  rw [e]
  simp only [powSequence_eq]
  suffices ∀ (l : List Nat) (b : Nat), l.foldl (fun (acc : Int) i => acc + ((s ^ i : Nat) : Int) * (a i : Int)) b
      = ((l.foldl (fun acc i => acc + s ^ i * a i) b : Nat) : Int) from by
    have := this (List.range d) 0
    simpa using this
  intro l
  induction l with
  | nil => intro b; rfl
  | cons x t ih =>
    intro b
    simp only [List.foldl_cons]
    rw [← ih]
    push_cast
    rfl

/-- The linear index of an in-block cell is below the number of cells, and converting it back
gives the cell. -/
theorem C05_cell_roundtrip (s : Nat) (index : Index d) (h : ∀ i, 0 ≤ index i ∧ index i < s) :
    0 ≤ indexToLinearIndex s index ∧ indexToLinearIndex s index < (s : Int) ^ d ∧
      linearIndexToIndex s d (indexToLinearIndex s index).toNat = index := by
  let a : Nat → Nat := fun k => if hk : k < d then (index ⟨k, hk⟩).toNat else 0
  have ha : ∀ i : Fin d, index i = a i.val := by
    intro i; simp only [a, i.isLt, dif_pos]; have := (h i).1; simp; omega
  have ha' : ∀ k, k < d → a k < s := by
    intro k hk; simp only [a, hk, dif_pos]; have := h ⟨k, hk⟩; omega
  obtain ⟨h1, h2⟩ := base_sum_digits s d a ha'
  rw [indexToLinearIndex_nat s index a ha]
  refine ⟨by omega, by exact_mod_cast h1, ?_⟩
  funext i
  simp only [linearIndexToIndex, Int.toNat_natCast, powSequence_eq]
  rw [h2 i.val i.isLt, ha i]

/-- Distinct in-block cells get distinct linear indices. -/
theorem C05_injective (s : Nat) (a b : Index d) (ha : ∀ i, 0 ≤ a i ∧ a i < s)
    (hb : ∀ i, 0 ≤ b i ∧ b i < s) (h : indexToLinearIndex s a = indexToLinearIndex s b) : a = b := by
  rw [← (C05_cell_roundtrip s a ha).2.2, ← (C05_cell_roundtrip s b hb).2.2, h]

/-- Every valid linear index decodes to an in-block cell that encodes back to it. -/
theorem C05_linear_roundtrip (s l : Nat) (hs : 0 < s) (hl : l < s ^ d) :
    (∀ i, 0 ≤ linearIndexToIndex s d l i ∧ linearIndexToIndex s d l i < s) ∧
      indexToLinearIndex s (linearIndexToIndex s d l) = l := by
  constructor
  · intro i
    simp only [linearIndexToIndex]
    have := Nat.mod_lt (l / powSequence s i.val) hs
    omega
  · rw [indexToLinearIndex_nat s _ (fun k => l / s ^ k % s), base_digits_sum, Nat.mod_eq_of_lt hl]
    intro i; simp [linearIndexToIndex, powSequence_eq]

example : indexToLinearIndex 16 (![3, 15, 7] : Index 3) = 3 + 16 * 15 + 256 * 7 := by decide

/-! ## C06 Block / in-block cell decomposition -/

/-- Every global cell index splits into a block index and an in-block cell index that lies inside the
block, and recombining gives the index back. Holds for negative indices. -/
theorem C06_split_recombine (e : Nat) (he : e ≤ 30) (index : Index d) :
    (∀ i, 0 ≤ indexToCellIndex e index i ∧ indexToCellIndex e index i < 2 ^ e) ∧
      cellAndBlockIndexToIndex (2 ^ e) (indexToBlockIndex e index) (indexToCellIndex e index)
        = index := by
  constructor
  · intro i
    simp only [indexToCellIndex, divExp2FloorRemainder_eq _ _ he]
    exact ⟨Int.emod_nonneg _ (Int.ne_of_gt (two_pow_pos' e)), Int.emod_lt_of_pos _ (two_pow_pos' e)⟩
  · funext i
    simp only [cellAndBlockIndexToIndex, indexToBlockIndex, indexToCellIndex, divExp2Floor_eq,
      divExp2FloorRemainder_eq _ _ he]
    push_cast
    have := Int.emod_add_mul_ediv (index i) (2 ^ e)
    omega

/-- The decomposition is unique: any block index and in-block cell index that recombine to a cell
are the ones returned. -/
theorem C06_unique (e : Nat) (he : e ≤ 30) (block cell : Index d)
    (hc : ∀ i, 0 ≤ cell i ∧ cell i < 2 ^ e) :
    indexToBlockIndex e (cellAndBlockIndexToIndex (2 ^ e) block cell) = block ∧
      indexToCellIndex e (cellAndBlockIndexToIndex (2 ^ e) block cell) = cell := by
  constructor
  · funext i
    simp only [cellAndBlockIndexToIndex, indexToBlockIndex]
    rw [divExp2Floor_iff]
    have := hc i
    push_cast
    constructor <;> nlinarith
  · funext i
    simp only [cellAndBlockIndexToIndex, indexToCellIndex, divExp2FloorRemainder_eq _ _ he]
    have := hc i
    push_cast
    rw [Int.add_comm, Int.add_mul_emod_self_left, Int.emod_eq_of_lt this.1 this.2]

example : indexToBlockIndex 4 (![-1, -16, -17, 15] : Index 4) 0 = -1 ∧
    indexToCellIndex 4 (![-1, -16, -17, 15] : Index 4) 0 = 15 ∧
    indexToBlockIndex 4 (![-1, -16, -17, 15] : Index 4) 2 = -2 ∧
    indexToCellIndex 4 (![-1, -16, -17, 15] : Index 4) 2 = 15 := by decide

/-! ## C09 Perfect tree node counts -/

/-- Number of nodes of a perfect `2^dim`-ary tree with `levels` levels: sum of the level sizes. -/
def perfectTreeNodes (dim levels : Nat) : Nat :=
  ((List.range levels).map fun l => (2 ^ dim) ^ l).sum

theorem perfectTreeNodes_succ (dim n : Nat) :
    perfectTreeNodes dim (n + 1) = perfectTreeNodes dim n + (2 ^ dim) ^ n := by
  simp [perfectTreeNodes, List.range_succ]

theorem perfectTreeNodes_geom (dim n : Nat) :
    perfectTreeNodes dim n * (2 ^ dim - 1) + 1 = 2 ^ (dim * n) := by
  induction n with
  | zero => simp [perfectTreeNodes]
  | succ n ih =>
    rw [perfectTreeNodes_succ, Nat.mul_add, Nat.pow_add, Nat.mul_one, ← Nat.pow_mul, ← ih]
    obtain ⟨q, hq⟩ : ∃ q, 2 ^ dim = q + 1 := ⟨2 ^ dim - 1, by have := Nat.two_pow_pos dim; omega⟩
    rw [hq, Nat.add_sub_cancel]
    ring

/-- The closed form is the sum of the level sizes, for every dimension and height. -/
theorem C09_total_nodes (dim h : Nat) (hd : 0 < dim) : numTotalNodes dim h = perfectTreeNodes dim h := by
  unfold numTotalNodes
  rw [exp2_eq, exp2_eq]
  have h1 := perfectTreeNodes_geom dim h
  have h2 : 2 ≤ 2 ^ dim := by
    calc 2 = 2 ^ 1 := rfl
      _ ≤ 2 ^ dim := Nat.pow_le_pow_right (by decide) hd
  apply Nat.div_eq_of_eq_mul_left (by omega)
  omega

/-- Dropping the lowest levels of a perfect tree by shifting. -/
theorem perfectTreeNodes_shift (dim a b : Nat) (hd : 0 < dim) :
    perfectTreeNodes dim (a + b) >>> (a * dim) = perfectTreeNodes dim b := by
  have split : perfectTreeNodes dim (a + b)
      = perfectTreeNodes dim a + 2 ^ (a * dim) * perfectTreeNodes dim b := by
    induction b with
    | zero => simp [perfectTreeNodes]
    | succ b ih =>
      rw [← Nat.add_assoc, perfectTreeNodes_succ, perfectTreeNodes_succ, ih, Nat.mul_add, Nat.pow_add,
        ← Nat.pow_mul, Nat.mul_comm a dim]
      omega
  have hlt : perfectTreeNodes dim a < 2 ^ (a * dim) := by
    have h1 := perfectTreeNodes_geom dim a
    have h2 : 2 ≤ 2 ^ dim := by
      calc 2 = 2 ^ 1 := rfl
        _ ≤ 2 ^ dim := Nat.pow_le_pow_right (by decide) hd
    have h3 : perfectTreeNodes dim a * 1 ≤ perfectTreeNodes dim a * (2 ^ dim - 1) :=
      Nat.mul_le_mul_left _ (by omega)
    rw [Nat.mul_comm a dim]; omega
  rw [Nat.shiftRight_eq_div_pow, split, Nat.add_mul_div_left _ _ (Nat.two_pow_pos _),
    Nat.div_eq_of_lt hlt, Nat.zero_add]

/-- The shift-based variant gives the same number for every supported height. -/
theorem C09_total_nodes_fast (dim h : Nat) (hd : 0 < dim) (hh : h ≤ 64 / dim - 1) :
    numTotalNodesFast dim h = perfectTreeNodes dim h := by
  unfold numTotalNodesFast numTotalNodesMaxHeight
  simp only [C09_total_nodes dim _ hd]
  obtain ⟨a, ha⟩ : ∃ a, 64 / dim - 1 = a + h := ⟨64 / dim - 1 - h, by omega⟩
  rw [ha, Nat.add_sub_cancel]
  exact perfectTreeNodes_shift dim a h hd

/-- Inner and leaf nodes add up to the total, leaf nodes are the last level. -/
theorem C09_inner_plus_leaf (dim h : Nat) (hd : 0 < dim) (hh : 0 < h) :
    numInnerNodes dim h + numLeafNodes dim h = perfectTreeNodes dim h ∧
      numLeafNodes dim h = (2 ^ dim) ^ (h - 1) := by
  obtain ⟨n, rfl⟩ : ∃ n, h = n + 1 := ⟨h - 1, by omega⟩
  simp only [numInnerNodes, numLeafNodes, Nat.add_sub_cancel, C09_total_nodes dim _ hd, exp2_eq]
  rw [perfectTreeNodes_succ, Nat.pow_mul]
  simp

/-- The count never exceeds a 64-bit word for supported heights, so the C++ arithmetic does not wrap. -/
theorem C09_no_overflow (dim h : Nat) (hd : 0 < dim) (hh : h ≤ 64 / dim - 1) :
    perfectTreeNodes dim h < 2 ^ 64 := by
  have h1 := perfectTreeNodes_geom dim h
  have h2 : 2 ≤ 2 ^ dim := by
    calc 2 = 2 ^ 1 := rfl
      _ ≤ 2 ^ dim := Nat.pow_le_pow_right (by decide) hd
  have h3 : perfectTreeNodes dim h * 1 ≤ perfectTreeNodes dim h * (2 ^ dim - 1) :=
    Nat.mul_le_mul_left _ (by omega)
  have h4 : 2 ^ (dim * h) ≤ 2 ^ 64 := by
    apply Nat.pow_le_pow_right (by decide)
    have := Nat.mul_le_mul_left dim (Nat.le_trans hh (Nat.sub_le _ _))
    have := Nat.mul_div_le 64 dim
    omega
  omega

example : numTotalNodesFast 3 3 = 1 + 8 + 64 ∧ perfectTreeNodes 3 3 = 73 := by decide

/-! ## C08 Tree traversal offsets -/

theorem perfectTreeNodes_mono (dim : Nat) {a b : Nat} (h : a ≤ b) :
    perfectTreeNodes dim a ≤ perfectTreeNodes dim b := by
  induction h with
  | refl => exact Nat.le_refl _
  | step _ ih => rw [perfectTreeNodes_succ]; omega

/-- Position of a node within its level below a root: the Morton bits between child and root. -/
theorem levelTraversalDistance_eq (dim m P h : Nat) :
    levelTraversalDistance dim m P h = m / 2 ^ (h * dim) % 2 ^ ((P - h) * dim) := by
  unfold levelTraversalDistance
  simp only [Nat.shiftLeft_eq, Nat.one_mul, Nat.shiftRight_eq_div_pow, Nat.and_two_pow_sub_one_eq_mod]

theorem levelTraversalDistance_lt (dim m P h : Nat) :
    levelTraversalDistance dim m P h < (2 ^ dim) ^ (P - h) := by
  rw [levelTraversalDistance_eq, ← Nat.pow_mul, Nat.mul_comm dim]
  exact Nat.mod_lt _ (Nat.two_pow_pos _)

/-- A node at depth `P - h` below a root at height `P` gets a slot among the perfect tree's
levels `0 .. P - h`, after all slots of shallower levels. -/
theorem C08_slot_bounds (dim m P h : Nat) (hd : 0 < dim) (hh : P - h ≤ 64 / dim - 1) :
    perfectTreeNodes dim (P - h) ≤ treeTraversalDistance dim m P h ∧
      treeTraversalDistance dim m P h < perfectTreeNodes dim (P - h + 1) := by
  unfold treeTraversalDistance
  rw [C09_total_nodes_fast dim _ hd hh, perfectTreeNodes_succ]
  have := levelTraversalDistance_lt dim m P h
  omega

/-- Distinct nodes of the subtree get distinct slots: equal slots imply equal heights and equal Morton
bits between node and root. -/
theorem C08_slots_injective (dim m m' P h h' : Nat) (hd : 0 < dim) (h1 : h ≤ P) (h2 : h' ≤ P)
    (hh : P - h ≤ 64 / dim - 1) (hh' : P - h' ≤ 64 / dim - 1)
    (heq : treeTraversalDistance dim m P h = treeTraversalDistance dim m' P h') :
    h = h' ∧ m / 2 ^ (h * dim) % 2 ^ ((P - h) * dim) = m' / 2 ^ (h * dim) % 2 ^ ((P - h) * dim) := by
  have b := C08_slot_bounds dim m P h hd hh
  have b' := C08_slot_bounds dim m' P h' hd hh'
  have hh : h = h' := by
    rcases Nat.lt_trichotomy (P - h) (P - h') with hlt | he | hgt
    · have := perfectTreeNodes_mono dim (show P - h + 1 ≤ P - h' by omega); omega
    · omega
    · have := perfectTreeNodes_mono dim (show P - h' + 1 ≤ P - h by omega); omega
  subst hh
  refine ⟨rfl, ?_⟩
  unfold treeTraversalDistance at heq
  rw [← levelTraversalDistance_eq, ← levelTraversalDistance_eq]
  omega

/-- Every slot of a perfect tree with `P + 1` levels is used by some node of the subtree. -/
theorem C08_slots_surjective (dim P s : Nat) (hd : 0 < dim) (hP : P ≤ 64 / dim - 1)
    (hs : s < perfectTreeNodes dim (P + 1)) :
    ∃ m h, h ≤ P ∧ m < 2 ^ (P * dim) ∧ treeTraversalDistance dim m P h = s := by
  -- find the level containing slot `s`
  obtain ⟨l, hl, hlo, hhi⟩ : ∃ l ≤ P, perfectTreeNodes dim l ≤ s ∧ s < perfectTreeNodes dim (l + 1) := by
    clear hP
    induction P with
    | zero => exact ⟨0, Nat.le_refl _, by simp [perfectTreeNodes], hs⟩
    | succ P ih =>
      by_cases h : s < perfectTreeNodes dim (P + 1)
      · obtain ⟨l, h1, h2⟩ := ih h; exact ⟨l, by omega, h2⟩
      · exact ⟨P + 1, Nat.le_refl _, by omega, hs⟩
  rw [perfectTreeNodes_succ] at hhi
  refine ⟨(s - perfectTreeNodes dim l) * 2 ^ ((P - l) * dim), P - l, by omega, ?_, ?_⟩
  · have e : 2 ^ (P * dim) = (2 ^ dim) ^ l * 2 ^ ((P - l) * dim) := by
      rw [← Nat.pow_mul, ← Nat.pow_add]; congr 1
      rw [Nat.mul_comm dim l, ← Nat.add_mul]; congr 1; omega
    rw [e]
    exact Nat.mul_lt_mul_of_pos_right (by omega) (Nat.two_pow_pos _)
  · unfold treeTraversalDistance
    have e : P - (P - l) = l := by omega
    rw [levelTraversalDistance_eq, e, C09_total_nodes_fast dim _ hd (by omega),
      Nat.mul_div_cancel _ (Nat.two_pow_pos _), Nat.mod_eq_of_lt]
    · omega
    · rw [Nat.mul_comm l dim, Nat.pow_mul]; omega

example : treeTraversalDistance 3 0b111010 2 0 = 9 + 58 := by decide

end Wavemap
