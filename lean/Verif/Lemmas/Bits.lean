import Verif.Model.NdtreeIndex
/-! Helper lemmas about bits of naturals and integers. -/
namespace Wavemap

theorem testBit_foldl_or {α : Type _} (f : α → Nat) (l : List α) (init j : Nat) :
    (l.foldl (fun acc x => acc ||| f x) init).testBit j
      = (init.testBit j || l.any fun x => (f x).testBit j) := by
  induction l generalizing init with
  | nil => simp
  | cons a t ih => simp [ih, Nat.testBit_or, Bool.or_assoc]

/-- Bit `k` of an integer in two's complement. -/
def ibit (x : Int) (k : Nat) : Bool := decide (x / 2 ^ k % 2 = 1)

theorem two_pow_pos' (n : Nat) : (0 : Int) < 2 ^ n := Int.pow_pos (by decide)

theorem toNat_emod_testBit (x : Int) (n k : Nat) :
    (x % 2 ^ n).toNat.testBit k = (decide (k < n) && ibit x k) := by
  have hnn : 0 ≤ x % 2 ^ n := Int.emod_nonneg _ (Int.ne_of_gt (two_pow_pos' n))
  have hlt : x % 2 ^ n < 2 ^ n := Int.emod_lt_of_pos _ (two_pow_pos' n)
  obtain ⟨m, hm⟩ : ∃ m : Nat, (m : Int) = x % 2 ^ n := ⟨_, Int.toNat_of_nonneg hnn⟩
  have hm' : (x % 2 ^ n).toNat = m := by rw [← hm]; rfl
  rw [hm']
  have hml : m < 2 ^ n := by
    rw [← hm] at hlt
    exact_mod_cast hlt
  by_cases hk : k < n
  · simp only [hk, decide_true, Bool.true_and, ibit, Nat.testBit_eq_decide_div_mod_eq]
    congr 1
    have hx : x = m + (x / 2 ^ n * 2 ^ (n - k - 1) * 2) * 2 ^ k := by
      have h1 : (2 : Int) ^ n = 2 ^ (n - k - 1) * 2 * 2 ^ k := by
        rw [← Int.pow_succ, ← Int.pow_add]; congr 1; omega
      calc x = x % 2 ^ n + 2 ^ n * (x / 2 ^ n) := (Int.emod_add_mul_ediv x _).symm
        _ = _ := by rw [← hm]; congr 1; rw [h1]; grind
    have : x / 2 ^ k = (m / 2 ^ k : Nat) + (x / 2 ^ n * 2 ^ (n - k - 1) * 2) := by
      conv => lhs; rw [hx]
      rw [Int.add_mul_ediv_right _ _ (Int.ne_of_gt (two_pow_pos' k))]
      simp
    rw [this]
    apply propext
    generalize x / 2 ^ n * 2 ^ (n - k - 1) = z
    generalize m / 2 ^ k = w
    omega
  · simp only [hk, decide_false, Bool.false_and]
    apply Nat.testBit_lt_two_pow
    exact Nat.lt_of_lt_of_le hml (Nat.pow_le_pow_right (by decide) (by omega))

theorem ibit_shiftRight (x : Int) (s k : Nat) : ibit (x >>> s) k = ibit x (s + k) := by
  simp only [ibit, Int.shiftRight_eq_div_pow]
  rw [Int.pow_add, ← Int.ediv_ediv_of_nonneg (Int.le_of_lt (two_pow_pos' s))]
  simp

theorem toNat_testBit_of_nonneg (x : Int) (h : 0 ≤ x) (k : Nat) : x.toNat.testBit k = ibit x k := by
  obtain ⟨m, rfl⟩ := Int.eq_ofNat_of_zero_le h
  simp only [ibit, Nat.testBit_eq_decide_div_mod_eq, Int.toNat_natCast]
  congr 1
  apply propext
  have : ((m : Int) / 2 ^ k) = ((m / 2 ^ k : Nat) : Int) := by simp
  rw [this]; omega

theorem bool_toNat_shiftLeft_testBit (b : Bool) (s j : Nat) :
    (b.toNat <<< s).testBit j = (decide (j = s) && b) := by
  rw [Nat.testBit_shiftLeft]
  cases b <;> simp
  by_cases h : j = s
  · subst h; simp
  · by_cases hjs : s ≤ j
    · obtain ⟨t, ht⟩ : ∃ t, j - s = t + 1 := ⟨j - s - 1, by omega⟩
      simp [hjs, h, ht, Nat.testBit_succ]
    · simp [hjs, h]

theorem bit_shift_testBit (y b s j : Nat) :
    (((y >>> b) &&& 1) <<< s).testBit j = (decide (j = s) && y.testBit b) := by
  have : (y >>> b) &&& 1 = (y.testBit b).toNat := by
    rw [Nat.testBit_eq_decide_div_mod_eq, Nat.and_one_is_mod, Nat.shiftRight_eq_div_pow]
    rcases Nat.mod_two_eq_zero_or_one (y / 2 ^ b) with h | h <;> simp [h]
  rw [this, bool_toNat_shiftLeft_testBit]

end Wavemap
