import Verif.Model.ClassifiedMap
import Verif.Props.Occupancy
import Verif.Props.HashedWavelet
import Verif.Lemmas.QueryNdtree
/-! # Classified trees describe their regions -/
namespace Wavemap
open NdtreeIndex Haar NdtreeBlockHash

namespace ChildBitset

theorem get_eq (b : ChildBitset) (i : Fin (2 ^ 3)) : get b i = b.getLsbD i.val := by
  unfold get
  by_cases h : b.getLsbD i.val = true
  · rw [h, decide_eq_true_eq]
    intro hc
    have := congrArg (fun x => x.getLsbD 0) hc
    simp only [BitVec.getLsbD_and, BitVec.getLsbD_ushiftRight, Nat.add_zero, h] at this
    exact absurd this (by decide)
  · rw [Bool.not_eq_true] at h
    rw [h, decide_eq_false_iff_not, ne_eq, not_not]
    apply BitVec.eq_of_getLsbD_eq
    intro j hj
    rw [BitVec.getLsbD_and, BitVec.getLsbD_ushiftRight]
    by_cases hj0 : j = 0
    · subst hj0; rw [Nat.add_zero, h]; decide
    · have : (1#8).getLsbD j = false := by simp [hj0]
      rw [this]; simp

theorem get_set (b : ChildBitset) (i j : Fin (2 ^ 3)) (v : Bool) : get (set b i v) j = if j = i then v else get b j := by
  have hi : i.val < 8 := i.isLt
  have hj : j.val < 8 := j.isLt
  rw [get_eq, get_eq, set]
  simp only [BitVec.getLsbD_or, BitVec.getLsbD_and, BitVec.getLsbD_not, BitVec.getLsbD_shiftLeft, hj, decide_true, Bool.true_and]
  by_cases h : j = i
  · subst h
    cases v <;> simp
  · have h' : j.val ≠ i.val := fun hc => h (Fin.ext hc)
    rw [if_neg h]
    by_cases hlt : j.val < i.val
    · cases v <;> simp [hlt]
    · have h1 : (1#8).getLsbD (j.val - i.val) = false := by
        have : j.val - i.val ≠ 0 := by omega
        simp [this]
      cases v <;> simp [hlt, h1]

theorem any_iff (b : ChildBitset) : any b = true ↔ ∃ i, get b i = true := by
  unfold any
  rw [decide_eq_true_eq]
  constructor
  · intro h
    by_contra hc
    apply h
    apply BitVec.eq_of_getLsbD_eq
    intro i hi
    by_contra hb
    apply hc
    refine ⟨⟨i, hi⟩, ?_⟩
    rw [get_eq]
    simpa using hb
  · rintro ⟨i, h⟩ rfl
    rw [get_eq] at h
    simp at h

end ChildBitset

/-! ### Classes -/

/-- The class of a value. -/
def classOf (threshold v : ℚ) : OccClass :=
  if |v| < 1 / 1000 then .unobserved else if v < threshold then .free else .occupied

theorem classOf_iff (t v : ℚ) (k : OccClass) : classOf t v = k ↔ IsClass t v k := by
  have h : IsClass t v (classOf t v) := by
    unfold classOf
    split
    · next h => rw [abs_lt] at h; exact h
    · next h =>
      rw [abs_lt, not_and_or, not_lt, not_lt] at h
      split
      · next h2 => exact ⟨h, h2⟩
      · next h2 => exact ⟨h, not_lt.1 h2⟩
  obtain ⟨c, hc, hu⟩ := C27_exactly_one_class t v
  constructor
  · rintro rfl; exact h
  · intro hk; rw [hu _ h, hu _ hk]

theorem is_class (cl : OccClassifier) (v : ℚ) :
    cl.is v OccId.free.toMask = decide (classOf cl.threshold v = .free) ∧
    cl.is v OccId.occupied.toMask = decide (classOf cl.threshold v = .occupied) ∧
    cl.is v OccId.unobserved.toMask = decide (classOf cl.threshold v = .unobserved) := by
  unfold OccClassifier.is OccClassifier.toMask classOf OccClassifier.isUnobserved OccClassifier.unobservedThreshold
  by_cases h1 : |v| < 1 / 1000
  · rw [if_pos (by rw [decide_eq_true_eq]; exact h1), if_pos h1]; decide
  · rw [if_neg (by rw [decide_eq_true_eq]; exact h1), if_neg h1]
    by_cases h2 : v < cl.threshold
    · rw [if_pos h2, if_pos h2]; decide
    · rw [if_neg h2, if_neg h2]; decide

/-- One bit of a node's data. -/
def ClassData.bit (a : ClassData) (k : OccClass) (c : Fin (2 ^ 3)) : Bool :=
  match k with
  | .free => a.hasFree.get c
  | .occupied => a.hasOccupied.get c
  | .unobserved => a.hasUnobserved.get c

/-- Summary bit of a node's data. -/
def ClassData.anyBit (a : ClassData) (k : OccClass) : Bool :=
  match k with
  | .free => a.hasFree.any
  | .occupied => a.hasOccupied.any
  | .unobserved => a.hasUnobserved.any

theorem ClassData.anyBit_iff (a : ClassData) (k : OccClass) : a.anyBit k = true ↔ ∃ c, a.bit k c = true := by
  cases k <;> exact ChildBitset.any_iff _

theorem inMask_child (a : ClassData) (c : Fin (2 ^ 3)) (k : OccClass) : InMask (a.childOccupancyMask c) k ↔ a.bit k c = true := by
  unfold ClassData.childOccupancyMask
  have h := C27_bool_mask (a.hasFree.get c) (a.hasOccupied.get c) (a.hasUnobserved.get c)
  cases k
  · exact h.1
  · exact h.2.1
  · exact h.2.2

theorem inMask_node (a : ClassData) (k : OccClass) : InMask a.occupancyMask k ↔ a.anyBit k = true := by
  unfold ClassData.occupancyMask
  have h := C27_bool_mask a.hasFree.any a.hasOccupied.any a.hasUnobserved.any
  cases k
  · exact h.1
  · exact h.2.1
  · exact h.2.2

theorem boolMask_high (f o u : Bool) (i : Nat) (hi : 3 ≤ i) : (occMaskOfBools f o u).getLsbD i = false := by
  by_cases h8 : i < 8
  · have : ∀ f o u : Bool, ∀ i : Fin 8, 3 ≤ i.val → (occMaskOfBools f o u).getLsbD i.val = false := by decide
    exact this f o u ⟨i, h8⟩ hi
  · exact BitVec.getLsbD_of_ge _ _ (by omega)

theorem bit_cases {i : Nat} (h : i < 3) : ∃ k : OccClass, i = k.bit := by
  have : i = 0 ∨ i = 1 ∨ i = 2 := by omega
  rcases this with rfl | rfl | rfl
  · exact ⟨.free, rfl⟩
  · exact ⟨.occupied, rfl⟩
  · exact ⟨.unobserved, rfl⟩

theorem has_iff (f o u : Bool) (mask : BitVec 8) :
    OccClassifier.has (occMaskOfBools f o u) mask = true ↔ ∃ k, InMask (occMaskOfBools f o u) k ∧ InMask mask k := by
  rw [has_iff_bit]
  constructor
  · rintro ⟨i, h1, h2⟩
    have hi : i < 3 := by
      by_contra hc
      rw [boolMask_high f o u i (by omega)] at h1; cases h1
    obtain ⟨k, rfl⟩ := bit_cases hi
    exact ⟨k, h1, h2⟩
  · rintro ⟨k, h1, h2⟩; exact ⟨_, h1, h2⟩

theorem isFully_iff (f o u : Bool) (mask : BitVec 8) :
    OccClassifier.isFully (occMaskOfBools f o u) mask = true ↔ ∀ k, InMask (occMaskOfBools f o u) k → InMask mask k := by
  unfold OccClassifier.isFully
  rw [decide_eq_true_eq]
  constructor
  · intro h k hk
    by_contra hc
    have := congrArg (fun b => b.getLsbD k.bit) h
    have h8 : k.bit < 8 := by cases k <;> decide
    have h7 : (7#8).getLsbD k.bit = true := by cases k <;> decide
    unfold InMask at hk hc
    rw [Bool.not_eq_true] at hc
    simp only [BitVec.getLsbD_and, BitVec.getLsbD_not, hk, hc, h7, h8] at this
    simp at this
  · intro h
    apply BitVec.eq_of_getLsbD_eq
    intro i hi
    simp only [BitVec.getLsbD_and, BitVec.getLsbD_not, hi, decide_true, Bool.true_and]
    by_cases h3 : i < 3
    · obtain ⟨k, rfl⟩ := bit_cases h3
      by_cases hk : InMask (occMaskOfBools f o u) k
      · have := h k hk
        unfold InMask at this
        rw [this]; simp
      · unfold InMask at hk
        rw [Bool.not_eq_true] at hk
        rw [hk]; simp
    · rw [boolMask_high f o u i (by omega)]; simp

/-! ### Regions -/

/-- The class occurs in the region of the node. -/
def Occurs (C : Index 3 → OccClass) (n : NdtreeIndex 3) (k : OccClass) : Prop := ∃ j, NodeRegion n j ∧ C j = k

/-- The region has a single class. -/
def Uniform (C : Index 3 → OccClass) (n : NdtreeIndex 3) : Prop := ∃ k, ∀ j, NodeRegion n j → C j = k

theorem region_nonempty {d : Nat} (n : NdtreeIndex d) : ∃ j, NodeRegion n j := by
  refine ⟨fun i => n.position i * 2 ^ n.height.toNat, fun i => ⟨Int.le_refl _, ?_⟩⟩
  have := two_pow_pos' n.height.toNat
  rw [Int.add_mul]; dsimp only; omega

theorem occurs_children (C : Index 3 → OccClass) (n : NdtreeIndex 3) (h : 1 ≤ n.height) (k : OccClass) :
    Occurs C n k ↔ ∃ c : Fin (2 ^ 3), Occurs C (n.computeChildIndex c.val) k := by
  unfold Occurs
  constructor
  · rintro ⟨j, hj, hk⟩
    obtain ⟨c, hc, hcj⟩ := (C03_children_partition n (by omega) j).1.1 hj
    exact ⟨⟨c, hc⟩, j, hcj, hk⟩
  · rintro ⟨c, j, hj, hk⟩
    exact ⟨j, (C03_children_partition n (by omega) j).1.2 ⟨c.val, c.isLt, hj⟩, hk⟩

theorem uniform_iff (C : Index 3 → OccClass) (n : NdtreeIndex 3) : Uniform C n ↔ ∃ k, ∀ k', Occurs C n k' ↔ k' = k := by
  constructor
  · rintro ⟨k, h⟩
    refine ⟨k, fun k' => ⟨?_, ?_⟩⟩
    · rintro ⟨j, hj, rfl⟩; exact h j hj
    · rintro rfl
      obtain ⟨j, hj⟩ := region_nonempty n
      exact ⟨j, hj, h j hj⟩
  · rintro ⟨k, h⟩
    exact ⟨k, fun j hj => (h _).1 ⟨j, hj, rfl⟩⟩

/-! ### Classified trees -/

namespace CTree

/-- A classified node at height `h` describes the region of `n`: its bits for each child are the classes in the child's region, and
if there are several, there is a child node that describes that region. With `ex`, there is no child node otherwise. -/
def Good (C : Index 3 → OccClass) (ex : Bool) : Nat → CTree → NdtreeIndex 3 → Prop
  | 0, _, _ => False
  | h + 1, t, n => t ≠ .nil ∧ ∀ c : Fin (2 ^ 3), (∀ k, (classData t).bit k c = true ↔ Occurs C (n.computeChildIndex c.val) k) ∧
      (¬ Uniform C (n.computeChildIndex c.val) → Good C ex h (NTree.child t c) (n.computeChildIndex c.val)) ∧
      (ex = true → Uniform C (n.computeChildIndex c.val) → NTree.child t c = .nil)

theorem Good.ne_nil {C : Index 3 → OccClass} {ex : Bool} {h : Nat} {t : CTree} {n : NdtreeIndex 3} (hg : Good C ex h t n) : t ≠ .nil := by
  cases h with
  | zero => exact hg.elim
  | succ h => exact hg.1

theorem Good.pos {C : Index 3 → OccClass} {ex : Bool} {h : Nat} {t : CTree} {n : NdtreeIndex 3} (hg : Good C ex h t n) : 0 < h := by
  cases h with
  | zero => exact hg.elim
  | succ h => omega

theorem Good.weaken {C : Index 3 → OccClass} {ex : Bool} : ∀ {h : Nat} {t : CTree} {n : NdtreeIndex 3}, Good C ex h t n → Good C false h t n := by
  intro h
  induction h with
  | zero => intro t n hg; exact hg.elim
  | succ h ih => intro t n hg; exact ⟨hg.1, fun c => ⟨(hg.2 c).1, fun hu => ih ((hg.2 c).2.1 hu), fun hc => absurd hc (by decide)⟩⟩

theorem Good.anyBit {C : Index 3 → OccClass} {ex : Bool} {h : Nat} {t : CTree} {n : NdtreeIndex 3} (hg : Good C ex h t n) (hn : n.height = h)
    (k : OccClass) : (classData t).anyBit k = true ↔ Occurs C n k := by
  obtain ⟨h', rfl⟩ : ∃ h', h = h' + 1 := ⟨h - 1, by have := hg.pos; omega⟩
  rw [ClassData.anyBit_iff, occurs_children C n (by omega)]
  exact exists_congr fun c => (hg.2 c).1 k

/-- What the rest of a node's life depends on: the bits and the child node of one child. -/
structure Slot (t : CTree) (c : Fin (2 ^ 3)) (bits : OccClass → Bool) (ch : CTree) : Prop where
  bit : ∀ k, (classData t).bit k c = bits k
  child : NTree.child t c = ch

/-- A step of the loop over the children touches only its own child. -/
structure Local (step : CTree → Fin (2 ^ 3) → CTree) (bits : Fin (2 ^ 3) → CTree → OccClass → Bool) (next : Fin (2 ^ 3) → CTree → CTree) :
    Prop where
  ne_nil : ∀ t c, t ≠ .nil → step t c ≠ .nil
  own : ∀ t c, t ≠ .nil → Slot (step t c) c (bits c (NTree.child t c)) (next c (NTree.child t c))
  other : ∀ t c c', t ≠ .nil → c' ≠ c → Slot (step t c) c' (fun k => (classData t).bit k c') (NTree.child t c')

theorem fold_slot {step : CTree → Fin (2 ^ 3) → CTree} {bits : Fin (2 ^ 3) → CTree → OccClass → Bool} {next : Fin (2 ^ 3) → CTree → CTree}
    (hl : Local step bits next) : ∀ (l : List (Fin (2 ^ 3))) (t : CTree), l.Nodup → t ≠ .nil →
    l.foldl step t ≠ .nil ∧ ∀ c, (c ∈ l → Slot (l.foldl step t) c (bits c (NTree.child t c)) (next c (NTree.child t c))) ∧
      (c ∉ l → Slot (l.foldl step t) c (fun k => (classData t).bit k c) (NTree.child t c)) := by
  intro l
  induction l with
  | nil => intro t _ ht; exact ⟨ht, fun c => ⟨fun h => (List.not_mem_nil h).elim, fun _ => ⟨fun _ => rfl, rfl⟩⟩⟩
  | cons x l ih =>
    intro t hnd ht
    rw [List.nodup_cons] at hnd
    obtain ⟨h1, h2⟩ := ih (step t x) hnd.2 (hl.ne_nil t x ht)
    refine ⟨h1, fun c => ⟨fun hc => ?_, fun hc => ?_⟩⟩
    · by_cases hcx : c = x
      · subst hcx
        have s1 := (h2 c).2 hnd.1
        have s2 := hl.own t c ht
        exact ⟨fun k => (s1.bit k).trans (s2.bit k), s1.child.trans s2.child⟩
      · have hcl : c ∈ l := by
          rcases List.mem_cons.1 hc with h | h
          · exact absurd h hcx
          · exact h
        have s1 := (h2 c).1 hcl
        have s2 := hl.other t x c ht hcx
        rw [s2.child] at s1
        exact s1
    · have hcx : c ≠ x := fun h => hc (by rw [h]; exact List.mem_cons_self ..)
      have s1 := (h2 c).2 fun h => hc (List.mem_cons_of_mem _ h)
      have s2 := hl.other t x c ht hcx
      exact ⟨fun k => (s1.bit k).trans (s2.bit k), s1.child.trans s2.child⟩

theorem fold_all {step : CTree → Fin (2 ^ 3) → CTree} {bits : Fin (2 ^ 3) → CTree → OccClass → Bool} {next : Fin (2 ^ 3) → CTree → CTree}
    (hl : Local step bits next) (t : CTree) (ht : t ≠ .nil) :
    (List.finRange (2 ^ 3)).foldl step t ≠ .nil ∧
      ∀ c, Slot ((List.finRange (2 ^ 3)).foldl step t) c (bits c (NTree.child t c)) (next c (NTree.child t c)) := by
  obtain ⟨h1, h2⟩ := fold_slot hl (List.finRange (2 ^ 3)) t (List.nodup_finRange _) ht
  exact ⟨h1, fun c => (h2 c).1 (List.mem_finRange c)⟩

/-- The three flags as a function. -/
def flags (f o u : Bool) : OccClass → Bool
  | .free => f
  | .occupied => o
  | .unobserved => u

theorem setBits_ne_nil (t : CTree) (c : Fin (2 ^ 3)) (f o u : Bool) (ht : t ≠ .nil) : setBits t c f o u ≠ .nil := by
  cases t with
  | nil => exact absurd rfl ht
  | leaf a => unfold setBits NTree.setData; simp
  | node a ch => unfold setBits NTree.setData; simp

theorem setBits_child (t : CTree) (c : Fin (2 ^ 3)) (f o u : Bool) (c' : Fin (2 ^ 3)) : NTree.child (setBits t c f o u) c' = NTree.child t c' := by
  cases t <;> rfl

theorem setBits_bit (t : CTree) (c : Fin (2 ^ 3)) (f o u : Bool) (ht : t ≠ .nil) (k : OccClass) (c' : Fin (2 ^ 3)) :
    (classData (setBits t c f o u)).bit k c' = if c' = c then flags f o u k else (classData t).bit k c' := by
  have h : classData (setBits t c f o u) =
      ⟨(classData t).hasFree.set c f, (classData t).hasOccupied.set c o, (classData t).hasUnobserved.set c u⟩ := by
    cases t with
    | nil => exact absurd rfl ht
    | leaf a => rfl
    | node a ch => rfl
  rw [h]
  cases k <;> exact ChildBitset.get_set _ _ _ _

theorem setLeaf_bit (cl : OccClassifier) (t : CTree) (c : Fin (2 ^ 3)) (v : ℚ) (ht : t ≠ .nil) (k : OccClass) (c' : Fin (2 ^ 3)) :
    (classData (setLeaf cl t c v)).bit k c' = if c' = c then decide (classOf cl.threshold v = k) else (classData t).bit k c' := by
  unfold setLeaf
  rw [setBits_bit t c _ _ _ ht]
  obtain ⟨h1, h2, h3⟩ := is_class cl v
  rw [h1, h2, h3]
  cases k <;> rfl

/-- Whether exactly one class is present below a child. -/
def single (k : CTree) : Bool :=
  decide ((classData k).hasFree.any.toNat + (classData k).hasOccupied.any.toNat + (classData k).hasUnobserved.any.toNat = 1)

theorem setInner_slot (t : CTree) (c : Fin (2 ^ 3)) (k : CTree) (ht : t ≠ .nil) :
    setInner t c k ≠ .nil ∧
    Slot (setInner t c k) c (classData k).anyBit (if single k then .nil else k) ∧
    ∀ c', c' ≠ c → Slot (setInner t c k) c' (fun x => (classData t).bit x c') (NTree.child t c') := by
  have h1 : NTree.setChild t c k ≠ .nil := NTree.setChild_ne_nil t ht c k
  have hd : classData (NTree.setChild t c k) = classData t := by cases t <;> rfl
  have hch : ∀ c', NTree.child (NTree.setChild t c k) c' = if c' = c then k else NTree.child t c' := by
    intro c'
    cases t with
    | nil => exact absurd rfl ht
    | leaf a => rfl
    | node a ch => rfl
  have hbits : ∀ x c', (classData (setBits (NTree.setChild t c k) c (classData k).hasFree.any (classData k).hasOccupied.any
      (classData k).hasUnobserved.any)).bit x c' = if c' = c then (classData k).anyBit x else (classData t).bit x c' := by
    intro x c'
    rw [setBits_bit _ _ _ _ _ h1, hd]
    cases x <;> rfl
  have hne := setBits_ne_nil (NTree.setChild t c k) c (classData k).hasFree.any (classData k).hasOccupied.any (classData k).hasUnobserved.any h1
  unfold setInner
  dsimp only
  have hs : single k = true ↔ (classData k).hasFree.any.toNat + (classData k).hasOccupied.any.toNat + (classData k).hasUnobserved.any.toNat = 1 := by
    unfold single; rw [decide_eq_true_eq]
  by_cases hsk : single k = true
  · rw [if_pos (hs.1 hsk), if_pos hsk]
    generalize hT : setBits (NTree.setChild t c k) c (classData k).hasFree.any (classData k).hasOccupied.any (classData k).hasUnobserved.any = T at *
    have hTc : ∀ c', NTree.child T c' = if c' = c then k else NTree.child t c' := by
      intro c'; rw [← hT, setBits_child, hch]
    have e1 : classData (NTree.eraseChild T c).1 = classData T := by cases T <;> rfl
    have e2 : ∀ c', NTree.child (NTree.eraseChild T c).1 c' = if c' = c then .nil else NTree.child T c' := by
      intro c'
      cases T with
      | nil => exact absurd rfl hne
      | leaf a =>
        show NTree.nil = _
        split <;> rfl
      | node a ch => rfl
    have e3 : (NTree.eraseChild T c).1 ≠ .nil := by
      cases T with
      | nil => exact absurd rfl hne
      | leaf a => simp [NTree.eraseChild]
      | node a ch => simp [NTree.eraseChild]
    refine ⟨e3, ⟨fun x => ?_, ?_⟩, fun c' hc' => ⟨fun x => ?_, ?_⟩⟩
    · rw [e1, hbits, if_pos rfl]
    · rw [e2, if_pos rfl]
    · rw [e1, hbits, if_neg hc']
    · rw [e2, if_neg hc', hTc, if_neg hc']
  · rw [if_neg (fun h => hsk (hs.2 h)), if_neg hsk]
    refine ⟨hne, ⟨fun x => ?_, ?_⟩, fun c' hc' => ⟨fun x => ?_, ?_⟩⟩
    · rw [hbits, if_pos rfl]
    · rw [setBits_child, hch, if_pos rfl]
    · rw [hbits, if_neg hc']
    · rw [setBits_child, hch, if_neg hc']

theorem single_iff (C : Index 3 → OccClass) {k : CTree} {n : NdtreeIndex 3} (h : ∀ x, (classData k).anyBit x = true ↔ Occurs C n x) :
    single k = true ↔ Uniform C n := by
  rw [uniform_iff]
  simp only [← h]
  unfold single
  rw [decide_eq_true_eq]
  have e1 : (classData k).hasFree.any = (classData k).anyBit .free := rfl
  have e2 : (classData k).hasOccupied.any = (classData k).anyBit .occupied := rfl
  have e3 : (classData k).hasUnobserved.any = (classData k).anyBit .unobserved := rfl
  rw [e1, e2, e3]
  generalize (classData k).anyBit = f
  have key : ∀ a b c : Bool, a.toNat + b.toNat + c.toNat = 1 ↔ (a = true ∧ b = false ∧ c = false) ∨ (a = false ∧ b = true ∧ c = false) ∨
      (a = false ∧ b = false ∧ c = true) := by decide
  rw [key]
  constructor
  · rintro (⟨h1, h2, h3⟩ | ⟨h1, h2, h3⟩ | ⟨h1, h2, h3⟩)
    · exact ⟨.free, fun x => by cases x <;> simp [h1, h2, h3]⟩
    · exact ⟨.occupied, fun x => by cases x <;> simp [h1, h2, h3]⟩
    · exact ⟨.unobserved, fun x => by cases x <;> simp [h1, h2, h3]⟩
  · rintro ⟨x, hx⟩
    have h1 := hx .free; have h2 := hx .occupied; have h3 := hx .unobserved
    cases x <;> simp at h1 h2 h3
    · exact Or.inl ⟨h1, h2, h3⟩
    · exact Or.inr (Or.inl ⟨h1, h2, h3⟩)
    · exact Or.inr (Or.inr ⟨h1, h2, h3⟩)

/-! #### `recursiveClassifier` -/

theorem rel_of_child {n : NdtreeIndex 3} {h : Nat} (hn : n.height = h + 1) {c : Fin (2 ^ 3)} {j : Index 3}
    (hj : NodeRegion (n.computeChildIndex c.val) j) : relFin (indexAndHeightToNodeIndex j h) = c := by
  have hh : (n.computeChildIndex c.val).height = h := by show n.height - 1 = _; omega
  rw [C03_region_iff_ancestor _ (by omega)] at hj
  have : (n.computeChildIndex c.val).height.toNat = h := by omega
  rw [this] at hj
  rw [hj]
  apply Fin.ext
  show (n.computeChildIndex c.val).computeRelativeChildIndex = c.val
  exact C02_relative_of_child _ _ c.isLt

theorem value_child {t : WTree} (ht : t ≠ .nil) {n : NdtreeIndex 3} {h : Nat} (hn : n.height = h + 1) {c : Fin (2 ^ 3)} {j : Index 3}
    (hj : NodeRegion (n.computeChildIndex c.val) j) (v : ℚ) :
    WTree.getValue t v (cellPath (h + 1) j) = WTree.getValue (NTree.child t c) (backward 3 ⟨v, WTree.details t⟩ c) (cellPath h j) := by
  rw [cellPath, WTree.getValue_cons t ht, rel_of_child hn hj, bwd3_single]

theorem child_region {n : NdtreeIndex 3} (hn : 1 ≤ n.height) {c : Fin (2 ^ 3)} {j : Index 3} (hj : NodeRegion (n.computeChildIndex c.val) j) :
    NodeRegion n j := (C03_children_partition n (by omega) j).1.2 ⟨c.val, c.isLt, hj⟩

/-- What `getOrAllocateChild` makes of the old child. -/
def ensure (k : CTree) : CTree :=
  match k with
  | .nil => .leaf {}
  | k => k

theorem getOrAllocate_eq (t : CTree) (c : Fin (2 ^ 3)) : NTree.getOrAllocateChild t c {} = ensure (NTree.child t c) := by
  unfold NTree.getOrAllocateChild ensure
  cases NTree.child t c <;> rfl

theorem ensure_ne_nil (k : CTree) : ensure k ≠ .nil := by cases k <;> simp [ensure]

/-- A loop that either sets the bits of a child or classifies the child. -/
theorem local_step (P : Fin (2 ^ 3) → Bool) (fl : Fin (2 ^ 3) → OccClass → Bool) (rec : Fin (2 ^ 3) → CTree → CTree) :
    Local (fun t c => if P c then setBits t c (fl c .free) (fl c .occupied) (fl c .unobserved)
        else setInner t c (rec c (NTree.getOrAllocateChild t c {})))
      (fun c k => if P c then fl c else (classData (rec c (ensure k))).anyBit)
      (fun c k => if P c then k else if single (rec c (ensure k)) then .nil else rec c (ensure k)) := by
  refine ⟨fun t c ht => ?_, fun t c ht => ?_, fun t c c' ht hc => ?_⟩
  · split
    · exact setBits_ne_nil _ _ _ _ _ ht
    · exact (setInner_slot t c _ ht).1
  · split
    · refine ⟨fun k => ?_, setBits_child _ _ _ _ _ _⟩
      rw [setBits_bit _ _ _ _ _ ht, if_pos rfl]; cases k <;> rfl
    · rw [getOrAllocate_eq]
      exact (setInner_slot t c _ ht).2.1
  · split
    · refine ⟨fun k => ?_, setBits_child _ _ _ _ _ _⟩
      rw [setBits_bit _ _ _ _ _ ht, if_neg hc]
    · exact (setInner_slot t c _ ht).2.2 c' hc

/-- The loop builds a good node if each leaf is uniform with the bits that are set, and the recursive calls build good nodes. -/
theorem loop_good {C : Index 3 → OccClass} {ex : Bool} {h : Nat} {n : NdtreeIndex 3} (hn : n.height = h + 1) (P : Fin (2 ^ 3) → Bool)
    (cls : Fin (2 ^ 3) → OccClass) (rec : Fin (2 ^ 3) → CTree → CTree) (ct : CTree) (hct : ct ≠ .nil)
    (hex : ex = true → ∀ c, NTree.child ct c = .nil)
    (hleaf : ∀ c, P c = true → ∀ j, NodeRegion (n.computeChildIndex c.val) j → C j = cls c)
    (hrec : ∀ c, P c = false → ∀ k, k ≠ .nil → (ex = true → ∀ c', NTree.child k c' = .nil) →
      Good C ex h (rec c k) (n.computeChildIndex c.val)) :
    Good C ex (h + 1) ((List.finRange (2 ^ 3)).foldl (fun t c => if P c then
        setBits t c (decide (cls c = .free)) (decide (cls c = .occupied)) (decide (cls c = .unobserved))
        else setInner t c (rec c (NTree.getOrAllocateChild t c {}))) ct) n := by
  obtain ⟨h1, h2⟩ := fold_all (local_step P (fun c k => decide (cls c = k)) rec) ct hct
  refine ⟨h1, fun c => ?_⟩
  obtain ⟨hb, hch⟩ := h2 c
  rw [hch]
  cases hP : P c with
  | true =>
    rw [hP] at hb
    simp only [if_true] at hb ⊢
    have hu : Uniform C (n.computeChildIndex c.val) := ⟨cls c, hleaf c hP⟩
    refine ⟨fun k => ?_, fun hc => absurd hu hc, fun he _ => hex he c⟩
    rw [hb k, decide_eq_true_eq]
    obtain ⟨j, hj⟩ := region_nonempty (n.computeChildIndex c.val)
    constructor
    · rintro rfl; exact ⟨j, hj, hleaf c hP j hj⟩
    · rintro ⟨j, hj, rfl⟩; exact (hleaf c hP j hj).symm
  | false =>
    rw [hP] at hb
    simp only [Bool.false_eq_true, if_false] at hb ⊢
    have hg := hrec c hP (ensure (NTree.child ct c)) (ensure_ne_nil _) (fun he c' => by rw [hex he c]; rfl)
    have hh : (n.computeChildIndex c.val).height = h := by show n.height - 1 = _; omega
    have ha := hg.anyBit hh
    have hs := single_iff C ha
    refine ⟨fun k => ?_, fun hc => ?_, fun he hu => ?_⟩
    · rw [hb k]; exact ha k
    · rw [if_neg (fun hs' => hc (hs.1 hs'))]; exact hg
    · rw [if_pos (hs.2 hu)]

theorem classify_eq (cl : OccClassifier) (t : WTree) (ht : t ≠ .nil) (avg : ℚ) (ct : CTree) :
    classify cl t avg ct = (List.finRange (2 ^ 3)).foldl (fun x c => if (NTree.child t c).isNil then
        setBits x c (decide (classOf cl.threshold (backward 3 ⟨avg, WTree.details t⟩ c) = .free))
          (decide (classOf cl.threshold (backward 3 ⟨avg, WTree.details t⟩ c) = .occupied))
          (decide (classOf cl.threshold (backward 3 ⟨avg, WTree.details t⟩ c) = .unobserved))
        else setInner x c (classify cl (NTree.child t c) (backward 3 ⟨avg, WTree.details t⟩ c) (NTree.getOrAllocateChild x c {}))) ct := by
  have hl : ∀ x c v, setLeaf cl x c v = setBits x c (decide (classOf cl.threshold v = .free)) (decide (classOf cl.threshold v = .occupied))
      (decide (classOf cl.threshold v = .unobserved)) := by
    intro x c v
    unfold setLeaf
    obtain ⟨h1, h2, h3⟩ := is_class cl v
    rw [h1, h2, h3]
  cases t with
  | nil => exact absurd rfl ht
  | leaf a =>
    rw [classify]
    simp only [hl]
    rfl
  | node a ch =>
    rw [classify]
    simp only [hl]
    rfl

/-- `recursiveClassifier` describes the region of the occupancy node. -/
theorem classify_good (cl : OccClassifier) (C : Index 3 → OccClass) (ex : Bool) : ∀ (h : Nat) (t : WTree) (n : NdtreeIndex 3) (avg : ℚ) (ct : CTree),
    t ≠ .nil → WTree.DepthLe h t → n.height = h → ct ≠ .nil → (ex = true → ∀ c, NTree.child ct c = .nil) →
    (∀ j, NodeRegion n j → C j = classOf cl.threshold (WTree.getValue t avg (cellPath h j))) → Good C ex h (classify cl t avg ct) n := by
  intro h
  induction h with
  | zero => intro t n avg ct ht hd; exact absurd hd ht
  | succ h ih =>
    intro t n avg ct ht hd hn hct hex hC
    rw [classify_eq cl t ht]
    have hn' : n.height = h + 1 := by exact_mod_cast hn
    refine loop_good hn' (fun c => (NTree.child t c).isNil) (fun c => classOf cl.threshold (backward 3 ⟨avg, WTree.details t⟩ c))
      (fun c k => classify cl (NTree.child t c) (backward 3 ⟨avg, WTree.details t⟩ c) k) ct hct hex ?_ ?_
    · intro c hc j hj
      rw [hC j (child_region (by omega) hj), value_child ht hn' hj, NTree.isNil_iff.1 hc, WTree.getValue_nil]
    · intro c hc k hk hk2
      refine ih _ _ _ _ ?_ (hd c) (by show n.height - 1 = _; omega) hk hk2 ?_
      · intro h'; rw [h'] at hc; cases hc
      · intro j hj
        rw [hC j (child_region (by omega) hj), value_child ht hn' hj]

/-- The class of a cell when distances are taken into account: a free cell closer than `radius` counts as occupied. -/
def esdfClass (threshold : ℚ) (distance : Index 3 → Option ℚ) (radius v : ℚ) (j : Index 3) : OccClass :=
  match classOf threshold v, distance j with
  | .free, some x => if x < radius then .occupied else .free
  | k, _ => k

theorem esdfClass_of_ne {threshold : ℚ} {distance : Index 3 → Option ℚ} {radius v : ℚ} {j : Index 3} (h : classOf threshold v ≠ .free) :
    esdfClass threshold distance radius v j = classOf threshold v := by
  unfold esdfClass
  cases hc : classOf threshold v with
  | free => exact absurd hc h
  | occupied => cases distance j <;> rfl
  | unobserved => cases distance j <;> rfl

theorem classifyEsdf_eq (cl : OccClassifier) (distance : Index 3 → Option ℚ) (radius : ℚ) (h : Nat) (n : NdtreeIndex 3) (hn : n.height = h + 1)
    (t : WTree) (avg : ℚ) (ct : CTree) :
    classifyEsdf cl distance radius (h + 1) n t avg ct = (List.finRange (2 ^ 3)).foldl (fun x c =>
      if decide (h = 0 ∨ (classOf cl.threshold (childAverage t avg c) ≠ .free ∧ (NTree.child t c).isNil = true)) then
        setBits x c (decide (esdfClass cl.threshold distance radius (childAverage t avg c) (n.computeChildIndex c.val).position = .free))
          (decide (esdfClass cl.threshold distance radius (childAverage t avg c) (n.computeChildIndex c.val).position = .occupied))
          (decide (esdfClass cl.threshold distance radius (childAverage t avg c) (n.computeChildIndex c.val).position = .unobserved))
        else setInner x c (classifyEsdf cl distance radius h (n.computeChildIndex c.val) (NTree.child t c) (childAverage t avg c)
          (NTree.getOrAllocateChild x c {}))) ct := by
  rw [classifyEsdf]
  congr 1
  funext x c
  obtain ⟨h1, h2, h3⟩ := is_class cl (childAverage t avg c)
  have hh : (n.computeChildIndex c.val).height = 0 ↔ h = 0 := by
    have : (n.computeChildIndex c.val).height = n.height - 1 := rfl
    omega
  dsimp only
  have hcond : ((n.computeChildIndex c.val).height = 0 ∨ (cl.is (childAverage t avg c) OccId.free.toMask = false ∧ (NTree.child t c).isNil = true)) ↔
      decide (h = 0 ∨ (classOf cl.threshold (childAverage t avg c) ≠ .free ∧ (NTree.child t c).isNil = true)) = true := by
    rw [decide_eq_true_eq, hh, h1, decide_eq_false_iff_not]
  by_cases hc : decide (h = 0 ∨ (classOf cl.threshold (childAverage t avg c) ≠ .free ∧ (NTree.child t c).isNil = true)) = true
  · rw [if_pos hc, if_pos (hcond.2 hc)]
    unfold setLeaf
    rw [h1, h2, h3]
    by_cases hk : classOf cl.threshold (childAverage t avg c) = .free
    · rw [hk, if_pos (by decide)]
      cases hd : distance (n.computeChildIndex c.val).position with
      | none =>
        have hE : esdfClass cl.threshold distance radius (childAverage t avg c) (n.computeChildIndex c.val).position = .free := by
          unfold esdfClass; rw [hk, hd]
        rw [hE]
      | some y =>
        dsimp only
        by_cases hy : y < radius
        · have hE : esdfClass cl.threshold distance radius (childAverage t avg c) (n.computeChildIndex c.val).position = .occupied := by
            unfold esdfClass; rw [hk, hd]; exact if_pos hy
          rw [if_pos hy, hE]; rfl
        · have hE : esdfClass cl.threshold distance radius (childAverage t avg c) (n.computeChildIndex c.val).position = .free := by
            unfold esdfClass; rw [hk, hd]; exact if_neg hy
          rw [if_neg hy, hE]
    · rw [esdfClass_of_ne hk, if_neg (by rw [decide_eq_true_eq]; exact hk)]
  · rw [if_neg hc, if_neg (fun h' => hc (hcond.1 h'))]

theorem value_child' {t : WTree} {n : NdtreeIndex 3} {h : Nat} (hn : n.height = h + 1) {c : Fin (2 ^ 3)} {j : Index 3}
    (hj : NodeRegion (n.computeChildIndex c.val) j) (v : ℚ) :
    WTree.getValue t v (cellPath (h + 1) j) = WTree.getValue (NTree.child t c) (childAverage t v c) (cellPath h j) := by
  unfold childAverage
  by_cases ht : t = .nil
  · subst ht
    simp only [WTree.getValue_nil, NTree.child_nil, NTree.isNil, if_true]
  · rw [if_neg (fun h => ht (NTree.isNil_iff.1 h))]
    exact value_child ht hn hj v

theorem classifyEsdf_good (cl : OccClassifier) (distance : Index 3 → Option ℚ) (radius : ℚ) (C : Index 3 → OccClass) (ex : Bool) :
    ∀ (h : Nat) (t : WTree) (n : NdtreeIndex 3) (avg : ℚ) (ct : CTree), 0 < h →
    WTree.DepthLe h t → n.height = h → ct ≠ .nil → (ex = true → ∀ c, NTree.child ct c = .nil) →
    (∀ j, NodeRegion n j → C j = esdfClass cl.threshold distance radius (WTree.getValue t avg (cellPath h j)) j) →
    Good C ex h (classifyEsdf cl distance radius h n t avg ct) n := by
  intro h
  induction h with
  | zero => intro t n avg ct h0; exact absurd h0 (by omega)
  | succ h ih =>
    intro t n avg ct _ hd hn hct hex hC
    have hn' : n.height = h + 1 := by exact_mod_cast hn
    rw [classifyEsdf_eq cl distance radius h n hn' t]
    refine loop_good hn' (fun c => decide (h = 0 ∨ (classOf cl.threshold (childAverage t avg c) ≠ .free ∧ (NTree.child t c).isNil = true)))
      (fun c => esdfClass cl.threshold distance radius (childAverage t avg c) (n.computeChildIndex c.val).position)
      (fun c k => classifyEsdf cl distance radius h (n.computeChildIndex c.val) (NTree.child t c) (childAverage t avg c) k) ct hct hex ?_ ?_
    · intro c hc j hj
      rw [hC j (child_region (by omega) hj), value_child' hn' hj]
      rw [decide_eq_true_eq] at hc
      rcases hc with h0 | ⟨h1, h2⟩
      · subst h0
        have hch : NTree.child t c = .nil := hd c
        rw [hch, WTree.getValue_nil]
        have he : n.computeChildIndex c.val = ⟨0, (n.computeChildIndex c.val).position⟩ := by
          have : (n.computeChildIndex c.val).height = 0 := by show n.height - 1 = 0; omega
          rw [← this]
        rw [he, WaveletBlock.region_cell] at hj
        rw [← hj]
      · rw [NTree.isNil_iff.1 h2, WTree.getValue_nil, esdfClass_of_ne h1, esdfClass_of_ne h1]
    · intro c hc k hk hk2
      rw [decide_eq_false_iff_not] at hc
      refine ih _ _ _ _ ?_ (hd c) (by show n.height - 1 = _; omega) hk hk2 ?_
      · exact Nat.pos_of_ne_zero fun h0 => hc (Or.inl h0)
      · intro j hj
        rw [hC j (child_region (by omega) hj), value_child' hn' hj]

end CTree
end Wavemap
