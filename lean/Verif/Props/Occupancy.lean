import Verif.Model.Occupancy
import Mathlib.Tactic.NormNum
import Mathlib.Tactic.FinCases
import Mathlib.Data.Fintype.Basic
/-!
# C27: occupancy classes and masks
-/
namespace Wavemap
open OccClassifier

/-! ## Specification -/

/-- The three elementary classes. -/
inductive OccClass where
  | free | occupied | unobserved
  deriving DecidableEq, Repr

/-- Class of a log-odds value, given the occupancy threshold. -/
def IsClass (threshold v : ℚ) : OccClass → Prop
  | .unobserved => -(1 / 1000) < v ∧ v < 1 / 1000
  | .free => (v ≤ -(1 / 1000) ∨ 1 / 1000 ≤ v) ∧ v < threshold
  | .occupied => (v ≤ -(1 / 1000) ∨ 1 / 1000 ≤ v) ∧ threshold ≤ v

/-- The classes admitted by an occupancy type. -/
def Admits : OccId → OccClass → Prop
  | .free, c => c = .free
  | .occupied, c => c = .occupied
  | .unobserved, c => c = .unobserved
  | .observed, c => c = .free ∨ c = .occupied
  | .any, _ => True

instance : DecidableRel Admits := fun a c => by cases a <;> unfold Admits <;> infer_instance

/-- The position of a class in a mask. -/
def OccClass.bit : OccClass → Nat
  | .free => 0 | .occupied => 1 | .unobserved => 2

/-- Reading of an 8-bit mask as a set of classes. -/
def InMask (m : BitVec 8) (c : OccClass) : Prop := m.getLsbD c.bit = true

instance (m c) : Decidable (InMask m c) := by unfold InMask; infer_instance

instance : Fintype OccClass := ⟨{.free, .occupied, .unobserved}, by intro c; cases c <;> decide⟩

/-! ## Theorems -/

/-- **C27** Every log-odds value falls in exactly one class. -/
theorem C27_exactly_one_class (t v : ℚ) : ∃ c, IsClass t v c ∧ ∀ c', IsClass t v c' → c' = c := by
  by_cases h : -(1 / 1000) < v ∧ v < 1 / 1000
  · refine ⟨.unobserved, h, fun c' hc => ?_⟩
    cases c' <;> simp only [IsClass] at hc ⊢
    · rcases hc.1 with h1 | h1
      · exact absurd h.1 (not_lt.2 h1)
      · exact absurd h.2 (not_lt.2 h1)
    · rcases hc.1 with h1 | h1
      · exact absurd h.1 (not_lt.2 h1)
      · exact absurd h.2 (not_lt.2 h1)
  · have h' : v ≤ -(1 / 1000) ∨ 1 / 1000 ≤ v := by
      rw [not_and_or, not_lt, not_lt] at h; exact h
    rcases lt_or_ge v t with ht | ht
    · refine ⟨.free, ⟨h', ht⟩, fun c' hc => ?_⟩
      cases c' <;> simp only [IsClass] at hc ⊢
      · exact absurd ht (not_lt.2 hc.2)
      · exact absurd hc h
    · refine ⟨.occupied, ⟨h', ht⟩, fun c' hc => ?_⟩
      cases c' <;> simp only [IsClass] at hc ⊢
      · exact absurd hc.2 (not_lt.2 ht)
      · exact absurd hc h

theorem unobserved_iff (v : ℚ) : isUnobserved v = true ↔ -(1 / 1000) < v ∧ v < 1 / 1000 := by
  unfold isUnobserved unobservedThreshold
  rw [decide_eq_true_eq, abs_lt]

/-- **C27** The mask of an occupancy type is the set of classes it admits, with no other bit set. -/
theorem C27_type_mask (a : OccId) :
    (∀ c, InMask a.toMask c ↔ Admits a c) ∧ ∀ i, 3 ≤ i → a.toMask.getLsbD i = false := by
  refine ⟨fun c => by cases a <;> cases c <;> decide, fun i hi => ?_⟩
  by_cases h8 : i < 8
  · have : ∀ i : Fin 8, 3 ≤ i.val → a.toMask.getLsbD i.val = false := by cases a <;> decide
    exact this ⟨i, h8⟩ hi
  · exact BitVec.getLsbD_of_ge _ _ (by omega)

/-- **C27** The mask assembled from three flags. -/
theorem C27_bool_mask (f o u : Bool) :
    (InMask (occMaskOfBools f o u) .free ↔ f = true) ∧ (InMask (occMaskOfBools f o u) .occupied ↔ o = true) ∧
    (InMask (occMaskOfBools f o u) .unobserved ↔ u = true) := by
  cases f <;> cases o <;> cases u <;> decide

/-- **C27** A value's mask holds its class and nothing else, and `classify` names that class. -/
theorem C27_value_mask (c : OccClassifier) (v : ℚ) (k : OccClass) :
    (InMask (c.toMask v) k ↔ IsClass c.threshold v k) ∧ (Admits (c.classify v) k ↔ IsClass c.threshold v k) := by
  have hu := unobserved_iff v
  unfold OccClassifier.toMask OccClassifier.classify
  by_cases h : isUnobserved v = true
  · rw [if_pos h, if_pos h]
    have h' := hu.1 h
    have hn : ¬ (v ≤ -(1 / 1000) ∨ 1 / 1000 ≤ v) := by
      rintro (h1 | h1)
      · exact absurd h'.1 (not_lt.2 h1)
      · exact absurd h'.2 (not_lt.2 h1)
    cases k
    · exact ⟨iff_of_false (by decide) (fun h => hn h.1), iff_of_false (by decide) (fun h => hn h.1)⟩
    · exact ⟨iff_of_false (by decide) (fun h => hn h.1), iff_of_false (by decide) (fun h => hn h.1)⟩
    · exact ⟨iff_of_true (by decide) h', iff_of_true (by decide) h'⟩
  · rw [if_neg h, if_neg h]
    have h0 : ¬ (-(1 / 1000) < v ∧ v < 1 / 1000) := fun h' => h (hu.2 h')
    have h' : v ≤ -(1 / 1000) ∨ 1 / 1000 ≤ v := by
      rw [not_and_or, not_lt, not_lt] at h0; exact h0
    by_cases ht : v < c.threshold
    · rw [if_pos ht, if_pos ht]
      cases k
      · exact ⟨iff_of_true (by decide) ⟨h', ht⟩, iff_of_true (by decide) ⟨h', ht⟩⟩
      · exact ⟨iff_of_false (by decide) (fun h => absurd ht (not_lt.2 h.2)),
          iff_of_false (by decide) (fun h => absurd ht (not_lt.2 h.2))⟩
      · exact ⟨iff_of_false (by decide) h0, iff_of_false (by decide) h0⟩
    · rw [if_neg ht, if_neg ht]
      cases k
      · exact ⟨iff_of_false (by decide) (fun h => ht h.2), iff_of_false (by decide) (fun h => ht h.2)⟩
      · exact ⟨iff_of_true (by decide) ⟨h', not_lt.1 ht⟩, iff_of_true (by decide) ⟨h', not_lt.1 ht⟩⟩
      · exact ⟨iff_of_false (by decide) h0, iff_of_false (by decide) h0⟩

theorem has_iff_bit (r m : BitVec 8) : has r m = true ↔ ∃ i, r.getLsbD i = true ∧ m.getLsbD i = true := by
  unfold has
  rw [decide_eq_true_eq]
  constructor
  · intro h
    by_contra hc
    apply h
    apply BitVec.eq_of_getLsbD_eq
    intro i hi
    rw [BitVec.getLsbD_and]
    cases h1 : r.getLsbD i <;> cases h2 : m.getLsbD i <;> simp
    exact absurd ⟨i, h1, h2⟩ hc
  · rintro ⟨i, h1, h2⟩ h
    have := congrArg (fun b => b.getLsbD i) h
    simp [BitVec.getLsbD_and, h1, h2] at this

/-- **C27** `has`: some class present in the region is admitted by the type. -/
theorem C27_has (r : BitVec 8) (a : OccId) : has r a.toMask = true ↔ ∃ c, InMask r c ∧ Admits a c := by
  rw [has_iff_bit]
  constructor
  · rintro ⟨i, h1, h2⟩
    have hi : i < 3 := by
      by_contra hc
      rw [(C27_type_mask a).2 i (by omega)] at h2; cases h2
    have : i = 0 ∨ i = 1 ∨ i = 2 := by omega
    rcases this with rfl | rfl | rfl
    · exact ⟨.free, h1, ((C27_type_mask a).1 .free).1 h2⟩
    · exact ⟨.occupied, h1, ((C27_type_mask a).1 .occupied).1 h2⟩
    · exact ⟨.unobserved, h1, ((C27_type_mask a).1 .unobserved).1 h2⟩
  · rintro ⟨c, h1, h2⟩
    exact ⟨c.bit, h1, ((C27_type_mask a).1 c).2 h2⟩

/-- **C27** `isFully`: all classes present in the region are admitted by the mask, for any region and mask. -/
theorem C27_is_fully_mask (r m : BitVec 8) : isFully r m = true ↔ ∀ c, InMask r c → InMask m c := by
  unfold isFully InMask
  rw [decide_eq_true_eq]
  have h7 : ∀ i, i < 8 → (0b111#8).getLsbD i = decide (i < 3) := by decide
  constructor
  · intro h c hc
    have := congrArg (fun b => b.getLsbD c.bit) h
    have hb : c.bit < 3 := by cases c <;> decide
    simp only [BitVec.getLsbD_and, BitVec.getLsbD_not, hc, h7 c.bit (by omega)] at this
    simp [hb, show c.bit < 8 by omega] at this
    exact this
  · intro h
    apply BitVec.eq_of_getLsbD_eq
    intro i hi
    rw [BitVec.getLsbD_and, BitVec.getLsbD_and, BitVec.getLsbD_not, h7 i hi]
    by_cases h3 : i < 3
    · have hh : r.getLsbD i = true → m.getLsbD i = true := by
        have : i = 0 ∨ i = 1 ∨ i = 2 := by omega
        rcases this with rfl | rfl | rfl
        · exact h .free
        · exact h .occupied
        · exact h .unobserved
      cases h1 : r.getLsbD i <;> simp [hi, h3]
      exact hh h1
    · simp [h3]

/-- **C27** `isFully` for an occupancy type. -/
theorem C27_is_fully (r : BitVec 8) (a : OccId) : isFully r a.toMask = true ↔ ∀ c, InMask r c → Admits a c := by
  rw [C27_is_fully_mask]
  exact forall_congr' fun c => imp_congr_right fun _ => (C27_type_mask a).1 c

/-- **C27** `is` for a value: its class is admitted; in particular `observed` is the complement of `unobserved`. -/
theorem C27_is (c : OccClassifier) (v : ℚ) (a : OccId) :
    (c.is v a.toMask = true ↔ ∃ k, IsClass c.threshold v k ∧ Admits a k) ∧
    (c.is v OccId.observed.toMask = !c.is v OccId.unobserved.toMask) ∧
    (isObserved v = c.is v OccId.observed.toMask) := by
  refine ⟨?_, ?_, ?_⟩
  · unfold OccClassifier.is
    rw [C27_has]
    exact exists_congr fun k => and_congr_left fun _ => (C27_value_mask c v k).1
  · unfold OccClassifier.is OccClassifier.toMask
    split
    · decide
    · split <;> decide
  · unfold OccClassifier.is OccClassifier.toMask isObserved
    cases h : isUnobserved v
    · simp only [Bool.false_eq_true, if_false]; split <;> decide
    · rw [if_pos rfl]; decide

/-- Non-vacuity: a region containing free and unobserved cells. -/
example : has (occMaskOfBools true false true) OccId.free.toMask = true ∧
    isFully (occMaskOfBools true false true) OccId.free.toMask = false ∧
    isFully (occMaskOfBools true true false) OccId.observed.toMask = true ∧
    IsClass 0 (1 / 2) .occupied := by
  refine ⟨by decide, by decide, by decide, Or.inr (by norm_num), by norm_num⟩

end Wavemap
