import Verif.Lemmas.Morton
import Mathlib.Tactic.Linarith
/-! Helper lemmas for node index arithmetic. -/
namespace Wavemap

theorem exp2_eq (e : Nat) : exp2 e = 2 ^ e := by simp [exp2, Nat.shiftLeft_eq]

theorem divExp2Floor_eq (v : Int) (e : Nat) : divExp2Floor v e = v / 2 ^ e := by
  simp [divExp2Floor, Int.shiftRight_eq_div_pow]

theorem multExp2_eq (v : Int) (e : Nat) : multExp2 v e = v * 2 ^ e := by
  simp [multExp2, exp2_eq]

theorem divExp2Floor_add (v : Int) (a b : Nat) :
    divExp2Floor (divExp2Floor v a) b = divExp2Floor v (a + b) := by
  simp only [divExp2Floor_eq]
  rw [Int.pow_add, ← Int.ediv_ediv_of_nonneg (Int.le_of_lt (two_pow_pos' a))]

theorem divExp2Floor_iff (v p : Int) (e : Nat) :
    divExp2Floor v e = p ↔ p * 2 ^ e ≤ v ∧ v < (p + 1) * 2 ^ e := by
  rw [divExp2Floor_eq]
  have hp := two_pow_pos' e
  have h1 := Int.emod_add_mul_ediv v (2 ^ e)
  have h2 := Int.emod_nonneg v (Int.ne_of_gt hp)
  have h3 := Int.emod_lt_of_pos v hp
  generalize (2 : Int) ^ e = w at *
  constructor
  · rintro rfl
    constructor <;> nlinarith
  · rintro ⟨h4, h5⟩
    rw [Int.ediv_eq_iff_of_pos hp]
    constructor
    · exact h4
    · nlinarith

/-- `Σ_{i<n} bit_i(c) 2^i = c mod 2^n`. -/
theorem bits_sum (c n : Nat) :
    (List.range n).foldl (fun acc i => acc + (((c >>> i) &&& 1) <<< i)) 0 = c % 2 ^ n := by
  induction n with
  | zero => simp [Nat.mod_one]
  | succ n ih =>
    rw [List.range_succ, List.foldl_append, ih]
    simp only [List.foldl_cons, List.foldl_nil]
    rw [Nat.shiftLeft_eq, Nat.and_one_is_mod, Nat.shiftRight_eq_div_pow, Nat.pow_succ, Nat.mod_mul,
      Nat.mul_comm]

theorem foldl_finRange_eq {β : Type _} (n : Nat) (f : β → Nat → β) (b : β) :
    (List.finRange n).foldl (fun acc i => f acc i.val) b = (List.range n).foldl f b := by
  have : List.range n = (List.finRange n).map Fin.val := by
    apply List.ext_getElem <;> simp
  rw [this, List.foldl_map]

/-- Summing bits `b i * 2^i` gives a number below `2^n` whose bits are `b`. -/
theorem sum_bits_testBit (n : Nat) (b : Nat → Nat) (hb : ∀ i, b i < 2) :
    (List.range n).foldl (fun acc i => acc + (b i <<< i)) 0 < 2 ^ n ∧
      ∀ k, k < n → ((List.range n).foldl (fun acc i => acc + (b i <<< i)) 0 >>> k) &&& 1 = b k := by
  induction n with
  | zero => simp
  | succ n ih =>
    rw [List.range_succ, List.foldl_append]
    simp only [List.foldl_cons, List.foldl_nil]
    generalize (List.range n).foldl (fun acc i => acc + (b i <<< i)) 0 = s at *
    obtain ⟨h1, h2⟩ := ih
    rw [Nat.shiftLeft_eq]
    have hbn := hb n
    constructor
    · have : b n * 2 ^ n ≤ 1 * 2 ^ n := Nat.mul_le_mul_right _ (by omega)
      rw [Nat.pow_succ]; omega
    · intro k hk
      simp only [Nat.shiftRight_eq_div_pow, Nat.and_one_is_mod] at *
      rcases Nat.lt_or_eq_of_le (Nat.le_of_lt_succ hk) with hk' | rfl
      · have e : b n * 2 ^ n = 2 ^ k * (2 * (b n * 2 ^ (n - k - 1))) := by
          have : 2 ^ n = 2 ^ k * (2 * 2 ^ (n - k - 1)) := by
            rw [← Nat.pow_succ', ← Nat.pow_add]; congr 1; omega
          rw [this]; grind
        rw [e, Nat.add_mul_div_left _ _ (Nat.two_pow_pos k), ← h2 k hk']
        omega
      · rw [Nat.add_mul_div_right _ _ (Nat.two_pow_pos k), Nat.div_eq_of_lt h1]
        omega

theorem relChild_eq {d : Nat} (n : NdtreeIndex d) (b : Nat → Nat)
    (h : ∀ i : Fin d, (n.position i % 2).toNat = b i.val) :
    n.computeRelativeChildIndex = (List.range d).foldl (fun acc i => acc + (b i <<< i)) 0 := by
  unfold NdtreeIndex.computeRelativeChildIndex
  simp only [h]
  exact foldl_finRange_eq d (fun acc i => acc + (b i <<< i)) 0

theorem relChild_spec {d : Nat} (n : NdtreeIndex d) :
    n.computeRelativeChildIndex < 2 ^ d ∧
      ∀ i : Fin d, (((n.computeRelativeChildIndex >>> i.val) &&& 1 : Nat) : Int) = n.position i % 2 := by
  let b : Nat → Nat := fun k => if h : k < d then (n.position ⟨k, h⟩ % 2).toNat else 0
  have hb : ∀ i, b i < 2 := by
    intro i
    simp only [b]
    split
    · have := Int.emod_lt_of_pos (n.position ⟨i, by assumption⟩) (show (0 : Int) < 2 by decide)
      omega
    · omega
  have hn : ∀ i : Fin d, (n.position i % 2).toNat = b i.val := by
    intro i; simp [b, i.isLt]
  rw [relChild_eq n b hn]
  obtain ⟨h1, h2⟩ := sum_bits_testBit d b hb
  refine ⟨h1, fun i => ?_⟩
  rw [h2 i.val i.isLt, ← hn]
  have := Int.emod_nonneg (n.position i) (show (2 : Int) ≠ 0 by decide)
  omega

/-- `value & ((1 << exp) - 1)` is the non-negative remainder. -/
theorem divExp2FloorRemainder_eq (v : Int) (e : Nat) (he : e ≤ 30) :
    divExp2FloorRemainder v e = v % 2 ^ e := by
  unfold divExp2FloorRemainder
  have hmask : BitVec.ofNat 32 (1 <<< e) - 1#32 = BitVec.ofNat 32 (2 ^ e - 1) := by
    rw [Nat.shiftLeft_eq, Nat.one_mul]
    have : 2 ^ e = (2 ^ e - 1) + 1 := by have := Nat.two_pow_pos e; omega
    conv => lhs; rw [this]
    rw [BitVec.ofNat_add]
    exact BitVec.add_sub_cancel _ _
  rw [hmask]
  have hnn : 0 ≤ v % 2 ^ e := Int.emod_nonneg _ (Int.ne_of_gt (two_pow_pos' e))
  have hlt : v % 2 ^ e < 2 ^ e := Int.emod_lt_of_pos _ (two_pow_pos' e)
  have hle : (2 : Int) ^ e ≤ 2 ^ 30 := pow_le_pow_right₀ (by decide) he
  have key : (BitVec.ofInt 32 v &&& BitVec.ofNat 32 (2 ^ e - 1)).toNat = (v % 2 ^ e).toNat := by
    apply Nat.eq_of_testBit_eq
    intro k
    rw [BitVec.toNat_and, Nat.testBit_and, toNat_emod_testBit, BitVec.toNat_ofNat,
      Nat.testBit_mod_two_pow, Nat.testBit_two_pow_sub_one, BitVec.toNat_ofInt]
    have := toNat_emod_testBit v 32 k
    have e32 : ((2 ^ 32 : Nat) : Int) = 2 ^ 32 := by norm_cast
    rw [e32, this]
    by_cases hk : k < e
    · have : k < 32 := by omega
      simp [hk, this]
    · simp [hk]
  rw [BitVec.toInt_eq_toNat_of_lt]
  · rw [key, Int.toNat_of_nonneg hnn]
  · rw [key]; omega

end Wavemap
