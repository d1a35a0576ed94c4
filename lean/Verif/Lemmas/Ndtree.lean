import Verif.Model.Ndtree
import Verif.Props.NodeIndex
import Mathlib.Data.List.Induction
/-! Helper lemmas for the Ndtree container: paths and lookups. -/
namespace Wavemap
open NdtreeIndex

/-! ### Lookups along paths -/
namespace NTree
variable {n : Nat} {α : Type}

def lookup (t : NTree n α) (p : List (Fin n)) : Option α := (t.descend p).data?

@[simp] theorem child_nil (i : Fin n) : (nil : NTree n α).child i = nil := rfl
@[simp] theorem child_leaf (a : α) (i : Fin n) : (leaf a).child i = nil := rfl
@[simp] theorem child_node (a : α) (ch : Fin n → NTree n α) (i : Fin n) : (node a ch).child i = ch i := rfl
@[simp] theorem data?_nil : (nil : NTree n α).data? = none := rfl
@[simp] theorem data?_leaf (a : α) : (leaf a : NTree n α).data? = some a := rfl
@[simp] theorem data?_node (a : α) (ch) : (node a ch : NTree n α).data? = some a := rfl
@[simp] theorem descend_nil' (t : NTree n α) : t.descend [] = t := by cases t <;> rfl
@[simp] theorem descend_cons (t : NTree n α) (i p) : t.descend (i :: p) = (t.child i).descend p := by
  cases t <;> rfl

@[simp] theorem nil_descend (p : List (Fin n)) : (nil : NTree n α).descend p = nil := by
  induction p with
  | nil => rfl
  | cons i p ih => simpa using ih

theorem descend_append (t : NTree n α) (p q : List (Fin n)) :
    t.descend (p ++ q) = (t.descend p).descend q := by
  induction p generalizing t with
  | nil => simp
  | cons i p ih => simp [ih]

@[simp] theorem lookup_nil (t : NTree n α) : t.lookup [] = t.data? := by simp [lookup]
@[simp] theorem lookup_cons (t : NTree n α) (i p) : t.lookup (i :: p) = (t.child i).lookup p := by
  simp [lookup]
@[simp] theorem nil_lookup (p : List (Fin n)) : (nil : NTree n α).lookup p = none := by
  simp [lookup]
theorem lookup_append (t : NTree n α) (p q : List (Fin n)) :
    t.lookup (p ++ q) = (t.descend p).lookup q := by simp [lookup, descend_append]

theorem data?_eq_none {t : NTree n α} : t.data? = none ↔ t = nil := by cases t <;> simp
theorem isNil_iff {t : NTree n α} : t.isNil = true ↔ t = nil := by cases t <;> simp [isNil]

@[simp] theorem setChild_child (t : NTree n α) (ht : t ≠ nil) (i j c) :
    (t.setChild i c).child j = if j = i then c else t.child j := by
  cases t with
  | nil => exact absurd rfl ht
  | leaf a => simp [setChild]
  | node a ch => simp [setChild]

@[simp] theorem setChild_data (t : NTree n α) (i c) : (t.setChild i c).data? = t.data? := by
  cases t <;> rfl

theorem setChild_ne_nil (t : NTree n α) (ht : t ≠ nil) (i c) : t.setChild i c ≠ nil := by
  cases t <;> simp_all [setChild]

theorem getOrAllocateChild_ne_nil (t : NTree n α) (i dflt) : t.getOrAllocateChild i dflt ≠ nil := by
  unfold getOrAllocateChild
  split <;> simp_all

theorem allocPath_ne_nil (dflt : α) (t : NTree n α) (ht : t ≠ nil) (p) : allocPath dflt t p ≠ nil := by
  cases p with
  | nil => cases t <;> simp_all [allocPath]
  | cons i p =>
    have : allocPath dflt t (i :: p) = t.setChild i (allocPath dflt (t.getOrAllocateChild i dflt) p) := by
      cases t <;> rfl
    rw [this]
    exact setChild_ne_nil _ ht _ _

theorem getOrAllocateChild_lookup_cons (t : NTree n α) (i dflt j q) :
    (t.getOrAllocateChild i dflt).lookup (j :: q) = (t.child i).lookup (j :: q) := by
  unfold getOrAllocateChild
  split
  · rename_i h; rw [h]; simp
  · rfl

theorem getOrAllocateChild_data (t : NTree n α) (i dflt) :
    (t.getOrAllocateChild i dflt).data? = some ((t.child i).data?.getD dflt) := by
  unfold getOrAllocateChild
  split
  · rename_i h; rw [h]; simp
  · rename_i h; cases h' : t.child i <;> simp_all

/-- Allocating a path creates exactly the missing nodes on it, with the default payload. -/
theorem allocPath_lookup (dflt : α) (t : NTree n α) (ht : t ≠ nil) (p q : List (Fin n)) :
    (allocPath dflt t p).lookup q
      = if q <+: p then some ((t.lookup q).getD dflt) else t.lookup q := by
  induction p generalizing t q with
  | nil =>
    have : allocPath dflt t [] = t := by cases t <;> rfl
    rw [this]
    split
    · rename_i h
      rw [List.prefix_nil] at h
      subst h
      cases t <;> simp_all
    · rfl
  | cons i p ih =>
    have : allocPath dflt t (i :: p) = t.setChild i (allocPath dflt (t.getOrAllocateChild i dflt) p) := by
      cases t <;> rfl
    rw [this]
    cases q with
    | nil =>
      simp only [lookup_nil, setChild_data, List.nil_prefix, if_true]
      cases t <;> simp_all
    | cons j q =>
      rw [lookup_cons, setChild_child _ ht]
      by_cases hj : j = i
      · subst hj
        simp only [if_true, List.prefix_cons_inj]
        rw [ih _ (getOrAllocateChild_ne_nil _ _ _)]
        cases q with
        | nil => simp [getOrAllocateChild_data]
        | cons k q => rw [getOrAllocateChild_lookup_cons]; simp only [lookup_cons]
      · have : ¬ (j :: q) <+: (i :: p) := by
          intro h
          rw [List.cons_prefix_cons] at h
          exact hj h.1
        simp only [hj, if_false, this, lookup_cons]

theorem modifyAt_cons (f : NTree n α → NTree n α) (t : NTree n α) (i p) (j : Fin n) :
    (modifyAt f t (i :: p)).child j = if j = i then modifyAt f (t.child i) p else t.child j := by
  cases t with
  | nil => cases p <;> simp [modifyAt]
  | leaf a => cases p <;> simp [modifyAt]
  | node a ch => simp [modifyAt]

theorem modifyAt_cons_data (f : NTree n α → NTree n α) (t : NTree n α) (i p) :
    (modifyAt f t (i :: p)).data? = t.data? := by
  cases t <;> rfl

theorem modifyAt_nil (f : NTree n α → NTree n α) (t : NTree n α) (ht : t ≠ nil) :
    modifyAt f t [] = f t := by
  cases t <;> simp_all [modifyAt]

theorem modifyAt_ne_nil (f : NTree n α → NTree n α) (hf : ∀ s, s ≠ nil → f s ≠ nil) (t : NTree n α)
    (ht : t ≠ nil) (p) : modifyAt f t p ≠ nil := by
  cases p with
  | nil => rw [modifyAt_nil _ _ ht]; exact hf _ ht
  | cons i p => cases t <;> simp_all [modifyAt]

/-- Modifying the node at a path changes that subtree and nothing else. -/
theorem modifyAt_descend (f : NTree n α → NTree n α) (t : NTree n α) (p q : List (Fin n)) :
    (modifyAt f t p).descend (p ++ q)
      = if (t.descend p).isNil then nil else (f (t.descend p)).descend q := by
  induction p generalizing t with
  | nil =>
    by_cases h : t = nil
    · subst h; simp [modifyAt, isNil]
    · have : t.isNil = false := by cases t <;> simp_all [isNil]
      simp [this, modifyAt_nil _ _ h]
  | cons i p ih =>
    simp only [List.cons_append, descend_cons, modifyAt_cons, if_true]
    rw [ih]

theorem modifyAt_lookup_of_not_prefix (f : NTree n α → NTree n α) (t : NTree n α)
    (p q : List (Fin n)) (h : ¬ p <+: q) : (modifyAt f t p).lookup q = t.lookup q := by
  induction p generalizing t q with
  | nil => exact absurd (List.nil_prefix) h
  | cons i p ih =>
    cases q with
    | nil => simp [modifyAt_cons_data]
    | cons j q =>
      simp only [lookup_cons, modifyAt_cons]
      by_cases hj : j = i
      · subst hj
        simp only [if_true]
        apply ih
        intro h'
        apply h
        rw [List.cons_prefix_cons]
        exact ⟨rfl, h'⟩
      · simp [hj]

theorem setData_lookup (t : NTree n α) (a : α) (q) :
    (t.setData a).lookup q = if q = [] then (t.data?.map fun _ => a) else t.lookup q := by
  cases q with
  | nil => cases t <;> simp [setData]
  | cons i q => cases t <;> simp [setData]

theorem eraseChild_lookup (t : NTree n α) (c : Fin n) (q) :
    (t.eraseChild c).1.lookup q = if [c] <+: q then none else t.lookup q := by
  cases q with
  | nil => cases t <;> simp [eraseChild]
  | cons i q =>
    cases t with
    | nil => simp [eraseChild]
    | leaf a => simp [eraseChild]
    | node a ch =>
      simp only [eraseChild, lookup_cons, child_node, List.cons_prefix_cons, List.nil_prefix, and_true]
      by_cases hi : i = c
      · subst hi; simp
      · have : ¬ c = i := fun h => hi h.symm
        simp [hi, this]

end NTree

/-! ### Node indices and paths -/
variable {d : Nat}

/-- A node of a tree with root `{H, 0}`: its height is at most `H` and its position lies in the grid of
that height. -/
def NodeInTree (H : Nat) (n : NdtreeIndex d) : Prop :=
  0 ≤ n.height ∧ n.height ≤ H ∧ ∀ i, 0 ≤ n.position i ∧ n.position i < 2 ^ (H - n.height.toNat)

/-- The largest tree height for which all positions are 32-bit and Morton codes are 64-bit
(`kMaxTreeHeight` for dimensions two and three). -/
def maxTreeHeight (d : Nat) : Nat := if d < 3 then 31 else 20

theorem NodeInTree.inRange {H : Nat} {n : NdtreeIndex d} (hH : H ≤ maxTreeHeight d) (h : NodeInTree H n) :
    NodeInRange n := by
  obtain ⟨h0, h1, h2⟩ := h
  refine ⟨h0, fun i => ⟨(h2 i).1, ?_⟩⟩
  have h3 := (h2 i).2
  have h4 : (n.position i + 1) * 2 ^ n.height.toNat ≤ 2 ^ (H - n.height.toNat) * 2 ^ n.height.toNat :=
    Int.mul_le_mul_of_nonneg_right (by omega) (Int.le_of_lt (two_pow_pos' _))
  rw [← pow_add, show H - n.height.toNat + n.height.toNat = H by omega] at h4
  have h5 : (2 : Int) ^ H ≤ 2 ^ maxTreeHeight d := pow_le_pow_right₀ (by decide) hH
  unfold maxTreeHeight at h5
  omega

theorem NodeInTree.parent {H : Nat} {n : NdtreeIndex d} (h : NodeInTree H n) (hlt : n.height < H) :
    NodeInTree H n.computeParentIndex := by
  obtain ⟨h0, h1, h2⟩ := h
  refine ⟨by simp only [computeParentIndex]; omega, by simp only [computeParentIndex]; omega, fun i => ?_⟩
  simp only [computeParentIndex, divExp2Floor_eq]
  have h3 := h2 i
  have e : (2 : Int) ^ (H - n.height.toNat) = 2 * 2 ^ (H - (n.height + 1).toNat) := by
    rw [← pow_succ']; congr 1; omega
  rw [e] at h3
  constructor <;> omega

theorem NodeInTree.child {H : Nat} {n : NdtreeIndex d} (h : NodeInTree H n) (hpos : 0 < n.height) (c : Nat) :
    NodeInTree H (n.computeChildIndex c) := by
  obtain ⟨h0, h1, h2⟩ := h
  refine ⟨by simp only [computeChildIndex]; omega, by simp only [computeChildIndex]; omega, fun i => ?_⟩
  simp only [computeChildIndex]
  have h3 := h2 i
  have e : (2 : Int) ^ (H - (n.height - 1).toNat) = 2 * 2 ^ (H - n.height.toNat) := by
    rw [← pow_succ']; congr 1; omega
  rw [e]
  have : (c >>> i.val &&& 1 : Nat) < 2 := by rw [Nat.and_one_is_mod]; omega
  omega

/-- The root index. -/
def rootIndex (d H : Nat) : NdtreeIndex d := ⟨H, fun _ => 0⟩

theorem NodeInTree.eq_root {H : Nat} {n : NdtreeIndex d} (h : NodeInTree H n) (he : n.height = H) :
    n = rootIndex d H := by
  obtain ⟨h0, h1, h2⟩ := h
  ext i
  · exact he
  · have := h2 i
    rw [he] at this
    simp at this
    simp only [rootIndex]
    omega

/-- The relative child number as an array index. -/
def relFin (n : NdtreeIndex d) : Fin (2 ^ d) := ⟨n.computeRelativeChildIndex, (relChild_spec n).1⟩

theorem relativeChildOfMorton_lt (dim m k : Nat) : relativeChildOfMorton dim m k < 2 ^ dim := by
  unfold relativeChildOfMorton
  rw [Nat.shiftLeft_eq, Nat.one_mul, Nat.and_two_pow_sub_one_eq_mod]
  exact Nat.mod_lt _ (Nat.two_pow_pos dim)

theorem mortonPath_of_le (m : Nat) {H h : Nat} (hle : H ≤ h) : mortonPath d m H h = [] := by
  cases H with
  | zero => rfl
  | succ H => simp [mortonPath, Nat.not_lt.mpr hle]

theorem mortonPath_succ (m : Nat) {H h : Nat} (hlt : h < H) :
    mortonPath d m H h = mortonPath d m H (h + 1)
      ++ [⟨relativeChildOfMorton d m (h + 1), relativeChildOfMorton_lt d m _⟩] := by
  induction H with
  | zero => omega
  | succ H ih =>
    simp only [mortonPath]
    rcases Nat.lt_or_eq_of_le (Nat.le_of_lt_succ hlt) with h' | rfl
    · have h1 : h < H + 1 := by omega
      have h2 : h + 1 < H + 1 := by omega
      rw [if_pos h1, if_pos h2, ih h', List.cons_append]
    · simp [mortonPath_of_le, Nat.mod_eq_of_lt (relativeChildOfMorton_lt d m _)]

theorem mortonPath_length (m : Nat) {H h : Nat} (hle : h ≤ H) : (mortonPath d m H h).length = H - h := by
  induction H with
  | zero => simp [mortonPath]
  | succ H ih =>
    simp only [mortonPath]
    split
    · rw [List.length_cons, ih (by omega)]; omega
    · simp; omega

theorem mortonPath_congr (m m' : Nat) {H h : Nat}
    (heq : ∀ k, h < k → k ≤ H → relativeChildOfMorton d m k = relativeChildOfMorton d m' k) :
    mortonPath d m H h = mortonPath d m' H h := by
  induction H with
  | zero => rfl
  | succ H ih =>
    simp only [mortonPath]
    split
    · rename_i hlt
      rw [ih (fun k h1 h2 => heq k h1 (by omega))]
      simp only [heq (H + 1) hlt (Nat.le_refl _)]
    · rfl

theorem relativeChildOfMorton_parent (hd : 1 ≤ d ∧ d ≤ 3) (n : NdtreeIndex d)
    (hn : NodeInRange n) (hp : NodeInRange n.computeParentIndex) (k : Nat) (hk : n.height.toNat + 1 < k) :
    relativeChildOfMorton d (nodeIndexToMorton n) k
      = relativeChildOfMorton d (nodeIndexToMorton n.computeParentIndex) k := by
  unfold relativeChildOfMorton
  apply Nat.eq_of_testBit_eq
  intro j
  rw [Nat.testBit_and, Nat.testBit_and, Nat.testBit_shiftRight, Nat.testBit_shiftRight,
    Nat.shiftLeft_eq, Nat.one_mul, Nat.testBit_two_pow_sub_one]
  by_cases hj : j < d
  · have b1 := nodeIndexToMorton_testBit hd n hn ⟨j, hj⟩ (k - 1)
    have b2 := nodeIndexToMorton_testBit hd _ hp ⟨j, hj⟩ (k - 1)
    simp only [Nat.mul_comm d] at b1 b2
    rw [b1, b2]
    have h0 := hn.1
    have e1 : n.height.toNat ≤ k - 1 := by omega
    have e2 : n.computeParentIndex.height.toNat ≤ k - 1 := by
      simp only [computeParentIndex]; omega
    simp only [e1, e2, decide_true, Bool.true_and]
    simp only [computeParentIndex, ibit_divExp2Floor]
    rw [show 1 + (k - 1 - (n.height + 1).toNat) = k - 1 - n.height.toNat by omega]
  · simp [hj]

theorem nodePath_root (H : Nat) : nodePath H (rootIndex d H) = [] := by
  unfold nodePath
  exact mortonPath_of_le _ (by simp [rootIndex])

theorem nodePath_of_ge {H : Nat} {n : NdtreeIndex d} (h : (H : Int) ≤ n.height) : nodePath H n = [] := by
  unfold nodePath
  exact mortonPath_of_le _ (by omega)

theorem nodePath_parent (hd : 1 ≤ d ∧ d ≤ 3) {H : Nat} (hH : H ≤ maxTreeHeight d) {n : NdtreeIndex d}
    (hn : NodeInTree H n) (hlt : n.height < H) :
    nodePath H n = nodePath H n.computeParentIndex ++ [relFin n] := by
  have h0 := hn.1
  have hr := hn.inRange hH
  have hpr := (hn.parent hlt).inRange hH
  unfold nodePath
  rw [mortonPath_succ _ (show n.height.toNat < H by omega)]
  congr 1
  · rw [show n.computeParentIndex.height.toNat = n.height.toNat + 1 by simp only [computeParentIndex]; omega]
    apply mortonPath_congr
    intro k h1 _
    exact relativeChildOfMorton_parent hd n hr hpr k h1
  · simp only [List.cons.injEq, and_true, relFin, Fin.mk.injEq]
    exact C02_relative_child_of_morton hd n hr

theorem nodePath_length {H : Nat} {n : NdtreeIndex d} (hn : NodeInTree H n) :
    (nodePath H n).length = H - n.height.toNat := by
  unfold nodePath
  rw [mortonPath_length]
  have := hn.1; have := hn.2.1; omega

/-- The index reached from the root by choosing children. -/
def indexOfPath (H : Nat) (p : List (Fin (2 ^ d))) : NdtreeIndex d :=
  p.foldl (fun n c => n.computeChildIndex c.val) (rootIndex d H)

theorem indexOfPath_append (H : Nat) (p : List (Fin (2 ^ d))) (c : Fin (2 ^ d)) :
    indexOfPath H (p ++ [c]) = (indexOfPath H p).computeChildIndex c.val := by
  simp [indexOfPath]

theorem indexOfPath_height (H : Nat) (p : List (Fin (2 ^ d))) :
    (indexOfPath H p).height = H - p.length := by
  induction p using List.reverseRecOn with
  | nil => simp [indexOfPath, rootIndex]
  | append_singleton p c ih => rw [indexOfPath_append]; simp [computeChildIndex, ih]; omega

theorem indexOfPath_inTree (H : Nat) (p : List (Fin (2 ^ d))) (hp : p.length ≤ H) :
    NodeInTree H (indexOfPath H p) := by
  induction p using List.reverseRecOn with
  | nil =>
    refine ⟨by simp [indexOfPath, rootIndex], by simp [indexOfPath, rootIndex], fun i => ?_⟩
    simp [indexOfPath, rootIndex]
  | append_singleton p c ih =>
    rw [indexOfPath_append]
    simp only [List.length_append, List.length_cons, List.length_nil] at hp
    apply (ih (by omega)).child
    rw [indexOfPath_height]; omega

theorem nodePath_indexOfPath (hd : 1 ≤ d ∧ d ≤ 3) {H : Nat} (hH : H ≤ maxTreeHeight d)
    (p : List (Fin (2 ^ d))) (hp : p.length ≤ H) : nodePath H (indexOfPath H p) = p := by
  induction p using List.reverseRecOn with
  | nil => exact nodePath_root H
  | append_singleton p c ih =>
    have hin := indexOfPath_inTree H _ hp
    simp only [List.length_append, List.length_cons, List.length_nil] at hp
    have hh := indexOfPath_height H (p ++ [c])
    rw [nodePath_parent hd hH hin (by rw [hh]; simp), indexOfPath_append,
      C02_parent_of_child, ih (by omega)]
    congr 1
    simp only [List.cons.injEq, and_true]
    apply Fin.ext
    exact C02_relative_of_child _ _ c.isLt

theorem indexOfPath_nodePath (hd : 1 ≤ d ∧ d ≤ 3) {H : Nat} (hH : H ≤ maxTreeHeight d)
    (n : NdtreeIndex d) (hn : NodeInTree H n) : indexOfPath H (nodePath H n) = n := by
  generalize hk : H - n.height.toNat = k
  induction k generalizing n with
  | zero =>
    have h0 := hn.1; have h1 := hn.2.1
    rw [hn.eq_root (by omega), nodePath_root]
    rfl
  | succ k ih =>
    have h0 := hn.1; have h1 := hn.2.1
    have hlt : n.height < H := by omega
    rw [nodePath_parent hd hH hn hlt, indexOfPath_append, ih _ (hn.parent hlt)]
    · exact (C02_child_of_parent n).2
    · simp only [computeParentIndex]; omega

theorem nodePath_injective (hd : 1 ≤ d ∧ d ≤ 3) {H : Nat} (hH : H ≤ maxTreeHeight d)
    {n m : NdtreeIndex d} (hn : NodeInTree H n) (hm : NodeInTree H m) :
    nodePath H n = nodePath H m ↔ n = m := by
  constructor
  · intro h
    rw [← indexOfPath_nodePath hd hH n hn, h, indexOfPath_nodePath hd hH m hm]
  · rintro rfl; rfl

theorem indexOfPath_parentAt (H : Nat) (p q : List (Fin (2 ^ d))) :
    (indexOfPath H (p ++ q)).computeParentIndexAt (H - p.length) = indexOfPath H p := by
  induction q using List.reverseRecOn with
  | nil =>
    rw [List.append_nil, ← indexOfPath_height]
    exact (C02_parentAt_base _).1
  | append_singleton q c ih =>
    rw [← ih, ← List.append_assoc]
    have e : indexOfPath H (p ++ q) = (indexOfPath H (p ++ q ++ [c])).computeParentIndexAt
        ((indexOfPath H (p ++ q ++ [c])).height + 1) := by
      rw [(C02_parentAt_base _).2]
      conv => rhs; rw [indexOfPath_append]
      rw [C02_parent_of_child]
    conv => rhs; rw [e]
    rw [C02_parentAt_trans]
    · omega
    · rw [indexOfPath_height]; simp; omega

/-- `n` is `m` or an ancestor of `m`. -/
def IsAncestorOrSelf (n m : NdtreeIndex d) : Prop :=
  m.height ≤ n.height ∧ m.computeParentIndexAt n.height = n

instance : DecidableEq (NdtreeIndex d) := fun a b =>
  decidable_of_iff (a.height = b.height ∧ ∀ i, a.position i = b.position i)
    ⟨fun h => NdtreeIndex.ext h.1 (funext h.2), fun h => by rw [h]; simp⟩

instance (n m : NdtreeIndex d) : Decidable (IsAncestorOrSelf n m) :=
  inferInstanceAs (Decidable (_ ∧ _))

/-- Ancestor relation = prefix relation of paths. -/
theorem nodePath_prefix_iff (hd : 1 ≤ d ∧ d ≤ 3) {H : Nat} (hH : H ≤ maxTreeHeight d)
    {n m : NdtreeIndex d} (hn : NodeInTree H n) (hm : NodeInTree H m) :
    nodePath H n <+: nodePath H m ↔ IsAncestorOrSelf n m := by
  have ln := nodePath_length hn
  have lm := nodePath_length hm
  have hn0 := hn.1; have hn1 := hn.2.1; have hm0 := hm.1; have hm1 := hm.2.1
  constructor
  · rintro ⟨q, hq⟩
    have hl : (nodePath H n).length ≤ (nodePath H m).length := by rw [← hq]; simp
    refine ⟨by omega, ?_⟩
    have h1 := indexOfPath_parentAt H (nodePath H n) q
    rw [hq, indexOfPath_nodePath hd hH m hm, indexOfPath_nodePath hd hH n hn] at h1
    rw [← h1]
    congr 1
  · rintro ⟨h1, h2⟩
    have h3 := indexOfPath_parentAt H ((nodePath H m).take (H - n.height.toNat))
      ((nodePath H m).drop (H - n.height.toNat))
    rw [List.take_append_drop, indexOfPath_nodePath hd hH m hm, List.length_take, lm,
      show (H : Int) - ((min (H - n.height.toNat) (H - m.height.toNat) : Nat) : Int) = n.height by omega,
      h2] at h3
    rw [h3, nodePath_indexOfPath hd hH _ (by rw [List.length_take]; omega)]
    exact List.take_prefix _ _

end Wavemap
