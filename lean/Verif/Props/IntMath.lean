import Verif.Lemmas.Index
import Verif.Lemmas.RangeBounds
import Verif.Model.BitOps
import Verif.Model.Haar
import Mathlib.Data.Nat.Choose.Basic
import Mathlib.Data.Nat.Log
import Mathlib.Tactic.NormNum
import Mathlib.Tactic.Ring
import Mathlib.Tactic.Linarith
/-!
# Integer and bit helpers (C83)

The specification is the usual arithmetic: floor and ceiling of quotients of integers, logarithms `Nat.log` and `Nat.clog`, powers, factorials, binomial coefficients
(`Nat.choose`), and bits given by `Nat.testBit` and `BitVec.getLsbD`.
-/
namespace Wavemap
open BitOps

/-! ## Arithmetic -/

/-- C83: division by a power of two rounds down, whatever the sign; the result is the only integer `q` with `q * 2^e ≤ v < (q + 1) * 2^e`. -/
theorem C83_div_floor (v q : Int) (e : Nat) : divExp2Floor v e = q ↔ q * 2 ^ e ≤ v ∧ v < (q + 1) * 2 ^ e := by
  have hp : (0 : Int) < 2 ^ e := by positivity
  rw [divExp2Floor_eq]
  constructor
  · rintro rfl
    constructor
    · exact Int.ediv_mul_le v hp.ne'
    · have := Int.lt_ediv_add_one_mul_self v hp; exact this
  · rintro ⟨h1, h2⟩
    apply le_antisymm
    · have := (Int.ediv_lt_iff_lt_mul hp).2 h2; omega
    · exact (Int.le_ediv_iff_mul_le hp).2 h1

/-- C83: the other division rounds up. -/
theorem C83_div_ceil (v q : Int) (e : Nat) : divExp2Ceil v e = q ↔ (q - 1) * 2 ^ e < v ∧ v ≤ q * 2 ^ e := by
  have h : divExp2Ceil v e = divExp2Floor (v + (exp2 e : Nat) - 1) e := rfl
  rw [h, C83_div_floor, exp2_eq]
  push_cast
  constructor
  · rintro ⟨h1, h2⟩
    constructor <;> nlinarith
  · rintro ⟨h1, h2⟩
    constructor <;> nlinarith

/-- C83: the remainder completes the quotient and lies in `[0, 2^e)`; for 32 bit values and exponents up to 30. -/
theorem C83_remainder (v : Int) (e : Nat) (he : e ≤ 30) :
    divExp2Floor v e * 2 ^ e + divExp2FloorRemainder v e = v ∧ 0 ≤ divExp2FloorRemainder v e ∧ divExp2FloorRemainder v e < 2 ^ e := by
  have hp : (0 : Int) < 2 ^ e := by positivity
  rw [divExp2FloorRemainder_eq v e he, divExp2Floor_eq]
  exact ⟨Int.ediv_mul_add_emod v (2 ^ e), Int.emod_nonneg _ hp.ne', Int.emod_lt_of_pos _ hp⟩

/-- C83: powers of two and multiplication by them; multiplying undoes exact division. -/
theorem C83_mult (v : Int) (e : Nat) : exp2 e = 2 ^ e ∧ multExp2 v e = v * 2 ^ e ∧ divExp2Floor (multExp2 v e) e = v ∧ divExp2Ceil (multExp2 v e) e = v := by
  have hp : (0 : Int) < 2 ^ e := by positivity
  have h : multExp2 v e = v * 2 ^ e := by unfold multExp2; rw [exp2_eq]; push_cast; rfl
  refine ⟨exp2_eq e, h, ?_, ?_⟩
  · rw [h, C83_div_floor]; constructor <;> nlinarith
  · rw [h, C83_div_ceil]; constructor <;> nlinarith

/-- C83: dividing unsigned numbers and rounding up. -/
theorem C83_div_round_up (n d q : Nat) (hd : 0 < d) : divRoundUp n d = q ↔ n ≤ q * d ∧ ∀ p, n ≤ p * d → q ≤ p := by
  have key : n ≤ divRoundUp n d * d ∧ ∀ p, n ≤ p * d → divRoundUp n d ≤ p := by
    unfold divRoundUp
    have h1 := Nat.div_add_mod n d
    have h2 := Nat.mod_lt n hd
    rw [Nat.mul_comm] at h1
    split
    · next h =>
      refine ⟨by rw [Nat.add_mul]; omega, fun p hp => ?_⟩
      by_contra hlt
      have : p * d ≤ n / d * d := Nat.mul_le_mul_right d (by omega)
      omega
    · next h =>
      refine ⟨by rw [Nat.add_zero]; omega, fun p hp => ?_⟩
      rw [Nat.add_zero]
      exact Nat.div_le_of_le_mul (by rw [Nat.mul_comm]; exact hp)
  constructor
  · rintro rfl; exact key
  · rintro ⟨h1, h2⟩
    exact le_antisymm (key.2 q h1) (h2 _ key.1)

/-! ## Logarithms -/

/-- C83: the logarithms of positive words are rounded down and up, in unsigned 64 bit words and in `int`. -/
theorem C83_log2 (x : Nat) (h0 : x ≠ 0) (hx : x < 2 ^ 64) : log2Floor x = Nat.log 2 x ∧ log2Ceil x = Nat.clog 2 x := by
  have hl : Nat.log2 x < 64 := (Nat.log2_lt h0).2 hx
  have h1 : log2Floor x = Nat.log 2 x := by
    unfold log2Floor clz64
    rw [← Nat.log2_eq_log_two]
    omega
  refine ⟨h1, ?_⟩
  unfold log2Ceil
  rw [h1]
  split
  · next hp =>
    obtain ⟨i, rfl⟩ := popcount_one hx hp
    rw [Nat.log_pow (by decide), Nat.clog_pow _ _ (by decide)]
  · next hp =>
    have hlt : 2 ^ Nat.log 2 x < x := by
      refine lt_of_le_of_ne (Nat.pow_log_le_self 2 h0) fun e => hp ?_
      have hi : Nat.log 2 x < 64 := by rw [← Nat.log2_eq_log_two]; exact hl
      rw [← e]
      exact popcount_two_pow hi
    have hle : x ≤ 2 ^ (Nat.log 2 x + 1) := (Nat.lt_pow_succ_log_self (by decide) x).le
    apply le_antisymm
    · have := (Nat.lt_clog_iff_pow_lt (by decide : 1 < 2)).2 hlt
      omega
    · exact (Nat.clog_le_iff_le_pow (by decide)).2 hle
where
  /-- A power of two has one bit. -/
  popcount_two_pow {i : Nat} (hi : i < 64) : popcount (2 ^ i) = 1 := by
    revert i
    decide +kernel

/-- C83: the same for `int`, where 0 is not allowed. -/
theorem C83_log2_int (x : Nat) (hx : x < 2 ^ 31) :
    log2FloorInt x = (if x = 0 then none else some (Nat.log 2 x)) ∧ log2CeilInt x = (if x = 0 then none else some (Nat.clog 2 x)) := by
  by_cases h0 : x = 0
  · subst h0; exact ⟨rfl, rfl⟩
  · have h := C83_log2 x h0 (hx.trans (by decide))
    rw [if_neg h0, if_neg h0]
    have hl : Nat.log2 x < 31 := (Nat.log2_lt h0).2 hx
    have hf : log2FloorInt x = some (log2Floor x) := by
      unfold log2FloorInt log2Floor clz64
      rw [if_neg h0]
      congr 1; omega
    have hc : log2CeilInt x = some (log2Ceil x) := by
      unfold log2CeilInt log2Ceil
      rw [hf]
      simp only [Option.bind_eq_bind, Option.bind_some, Option.pure_def]
    rw [hf, hc, h.1, h.2]
    exact ⟨rfl, rfl⟩

/-- C83: the test for powers of two is right for every number. -/
theorem C83_power_of_two (x : Nat) : isPowerOfTwo x = true ↔ ∃ i, x = 2 ^ i := by
  unfold isPowerOfTwo
  rw [Bool.and_eq_true, bne_iff_ne, beq_iff_eq]
  constructor
  · rintro ⟨h0, h⟩
    exact ⟨_, (Nat.and_sub_one_eq_zero_iff_isPowerOfTwo h0).1 h |>.choose_spec⟩
  · rintro ⟨i, rfl⟩
    refine ⟨(Nat.two_pow_pos i).ne', ?_⟩
    exact (Nat.and_sub_one_eq_zero_iff_isPowerOfTwo (Nat.two_pow_pos i).ne').2 ⟨i, rfl⟩

/-! ## Powers, factorials, binomial coefficients -/

theorem factorialLoop_eq (r n : Nat) : factorialLoop r n = r * n.factorial := by
  induction n generalizing r with
  | zero => simp [factorialLoop]
  | succ n ih =>
    unfold factorialLoop
    split
    · rw [ih, Nat.factorial_succ]; ring
    · have : n = 0 := by omega
      subst this; simp

/-- C83: powers, factorials and binomial coefficients. -/
theorem C83_combinatorics (b n m : Nat) : powLoop b n = b ^ n ∧ powSequence b n = b ^ n ∧ factorial n = n.factorial ∧ binomial n m = n.choose m := by
  refine ⟨?_, ?_, ?_, ?_⟩
  · induction n with
    | zero => rfl
    | succ n ih => unfold powLoop; rw [ih, pow_succ]
  · induction n with
    | zero => rfl
    | succ n ih => unfold powSequence; rw [ih, pow_succ]
  · unfold factorial; rw [factorialLoop_eq, Nat.one_mul]
  · have hf : ∀ k, factorial k = k.factorial := fun k => by unfold factorial; rw [factorialLoop_eq, Nat.one_mul]
    unfold binomial
    split
    · next h => rw [Nat.choose_eq_zero_of_lt h]
    · split
      · next h => rw [h, Nat.choose_self]
      · rw [hf, hf, hf, Nat.choose_eq_factorial_div_factorial (by omega)]

/-- C83: in `int`, the factorials in a binomial coefficient fit exactly up to 12, which includes all uses in the library (numbers of dimensions). -/
theorem C83_factorial_fits (n : Nat) : factorial n < 2 ^ 31 ↔ n ≤ 12 := by
  rw [(C83_combinatorics 0 n 0).2.2.1]
  constructor
  · intro h
    by_contra hn
    have := Nat.factorial_le (show 13 ≤ n by omega)
    have e : Nat.factorial 13 = 6227020800 := by decide
    omega
  · intro h
    have := Nat.factorial_le h
    have e : Nat.factorial 12 = 479001600 := by decide
    omega

/-! ## Bits -/

theorem one_shl_bit {w : Nat} (i j : Nat) (hi : i < w) : (1#w <<< i).getLsbD j = decide (j = i) := by
  rw [BitVec.getLsbD_shiftLeft, BitVec.getLsbD_one]
  by_cases h : j = i
  · subst h; simp; omega
  · by_cases hlt : j < i
    · simp [hlt, h]
    · have : j - i ≠ 0 := by omega
      simp [this, h]

/-- C83: reading and writing single bits: the bit written is the one read, and all others are left alone. -/
theorem C83_bits {w : Nat} (x : BitVec w) (i : Nat) (hi : i < w) (v : Bool) :
    isBitSet x i = some (x.getLsbD i) ∧
    (∃ y, setBit x i = some y ∧ ∀ j, y.getLsbD j = if j = i then true else x.getLsbD j) ∧
    (∃ y, unsetBit x i = some y ∧ ∀ j, y.getLsbD j = if j = i then false else x.getLsbD j) ∧
    (∃ y, setBitTo x i v = some y ∧ ∀ j, y.getLsbD j = if j = i then v else x.getLsbD j) := by
  have hw : 0 < w := by omega
  refine ⟨?_, ⟨_, by unfold setBit shl; rw [if_pos hi]; rfl, fun j => ?_⟩, ⟨_, by unfold unsetBit shl; rw [if_pos hi]; rfl, fun j => ?_⟩, ?_⟩
  · unfold isBitSet shr
    rw [if_pos hi, Option.map_some]
    congr 1
    cases hb : x.getLsbD i
    · rw [bne_eq_false_iff_eq]
      apply BitVec.eq_of_getLsbD_eq
      intro k hk
      rw [BitVec.getLsbD_and, BitVec.getLsbD_one, BitVec.getLsbD_ushiftRight, BitVec.getLsbD_zero]
      by_cases h0 : k = 0
      · subst h0; simp [hb]
      · simp [h0]
    · rw [bne_iff_ne]
      intro h
      have := congrArg (fun y => y.getLsbD 0) h
      simp [hb, hw] at this
  · rw [BitVec.getLsbD_or, one_shl_bit i j hi]
    by_cases h : j = i <;> simp [h]
  · rw [BitVec.getLsbD_and, BitVec.getLsbD_not, one_shl_bit i j hi]
    by_cases h : j = i
    · simp [h]
    · by_cases hj : j < w
      · simp [h, hj]
      · simp [h, hj, BitVec.getLsbD_of_ge x j (by omega)]
  · cases v
    · refine ⟨_, by unfold setBitTo unsetBit shl; rw [if_pos hi, if_pos hi]; rfl, fun j => ?_⟩
      rw [BitVec.getLsbD_or, BitVec.getLsbD_and, BitVec.getLsbD_not, one_shl_bit i j hi]
      by_cases h : j = i
      · simp [h]
      · by_cases hj : j < w
        · simp [h, hj]
        · simp [h, hj, BitVec.getLsbD_of_ge x j (by omega)]
    · refine ⟨_, by unfold setBitTo unsetBit shl; rw [if_pos hi, if_pos hi]; rfl, fun j => ?_⟩
      rw [BitVec.getLsbD_or, BitVec.getLsbD_and, BitVec.getLsbD_not, one_shl_bit i j hi]
      have e : (BitVec.ofNat w (true.toNat) <<< i).getLsbD j = decide (j = i) := one_shl_bit i j hi
      rw [e]
      by_cases h : j = i
      · simp [h]
      · by_cases hj : j < w
        · simp [h, hj]
        · simp [h, hj, BitVec.getLsbD_of_ge x j (by omega)]

theorem mask_bit {w width : Nat} (hw : width ≤ w) (j : Nat) : (mask w width).getLsbD j = decide (j < width) := by
  unfold mask
  rw [BitVec.getLsbD_ushiftRight, BitVec.getLsbD_allOnes]
  congr 1
  rw [eq_iff_iff]; omega

/-- C83: rotating the lowest `width` bits to the left moves bit `i` to bit `i + shift` modulo the width, and clears the rest. -/
theorem C83_rotate_left {w : Nat} (width shift : Nat) (x : BitVec w) (hw : width ≤ w) (h0 : 0 < shift) (h : shift < width) :
    ∃ y, rotateLeft width x shift = some y ∧ (∀ i, i < width → y.getLsbD ((i + shift) % width) = x.getLsbD i) ∧ ∀ i, width ≤ i → y.getLsbD i = false := by
  refine ⟨_, by unfold rotateLeft shl shr; dsimp only; rw [if_pos (by omega)]; simp only [Option.bind_some]; rw [if_neg (by omega), if_pos (by omega)]; rfl, fun i hi => ?_, fun i hi => ?_⟩
  · have hm : (i + shift) % width < width := Nat.mod_lt _ (by omega)
    rw [BitVec.getLsbD_and, BitVec.getLsbD_or, mask_bit hw, BitVec.getLsbD_shiftLeft, BitVec.getLsbD_ushiftRight, BitVec.getLsbD_and, BitVec.getLsbD_and,
      mask_bit hw, mask_bit hw]
    by_cases hc : i + shift < width
    · rw [Nat.mod_eq_of_lt hc]
      have e1 : ¬ (i + shift < shift) := by omega
      have e2 : i + shift - shift = i := by omega
      have e3 : ¬ (width - shift + (i + shift) < width) := by omega
      have e4 : i + shift < w := by omega
      simp [e2, e3, e4, hc, hi]
    · have e : (i + shift) % width = i + shift - width := by
        rw [Nat.mod_eq_sub_mod (by omega), Nat.mod_eq_of_lt (by omega)]
      rw [e]
      have e1 : i + shift - width < shift := by omega
      have e2 : width - shift + (i + shift - width) = i := by omega
      have e3 : i + shift - width < width := by omega
      simp [e1, e2, e3, hi]
  · rw [BitVec.getLsbD_and, mask_bit hw]
    simp; omega

/-- C83: rotating to the right is the inverse. -/
theorem C83_rotate_right {w : Nat} (width shift : Nat) (x : BitVec w) (hw : width ≤ w) (h0 : 0 < shift) (h : shift < width) :
    ∃ y, rotateRight width x shift = some y ∧ (∀ i, i < width → y.getLsbD i = x.getLsbD ((i + shift) % width)) ∧ ∀ i, width ≤ i → y.getLsbD i = false := by
  refine ⟨_, by unfold rotateRight shl shr; dsimp only; rw [if_pos (by omega)]; simp only [Option.bind_some]; rw [if_neg (by omega), if_pos (by omega)]; rfl, fun i hi => ?_, fun i hi => ?_⟩
  · rw [BitVec.getLsbD_and, BitVec.getLsbD_or, mask_bit hw, BitVec.getLsbD_shiftLeft, BitVec.getLsbD_ushiftRight, BitVec.getLsbD_and, BitVec.getLsbD_and,
      mask_bit hw, mask_bit hw]
    by_cases hc : i + shift < width
    · rw [Nat.mod_eq_of_lt hc]
      have e1 : i < width - shift := by omega
      have e3 : shift + i < width := by omega
      have e2 : shift + i = i + shift := by omega
      simp [e1, e2, hc, hi]
    · have e : (i + shift) % width = i + shift - width := by
        rw [Nat.mod_eq_sub_mod (by omega), Nat.mod_eq_of_lt (by omega)]
      rw [e]
      have e1 : ¬ (i < width - shift) := by omega
      have e2 : i - (width - shift) = i + shift - width := by omega
      have e3 : ¬ (shift + i < width) := by omega
      have e4 : i < w := by omega
      have e5 : i + shift - width < width := by omega
      simp [e1, e2, e3, e4, e5, hi]
  · rw [BitVec.getLsbD_and, mask_bit hw]
    simp; omega

/-- C83: rotating left and back right restores the rotated bits. -/
theorem C83_rotate_back {w : Nat} (width shift : Nat) (x : BitVec w) (hw : width ≤ w) (h0 : 0 < shift) (h : shift < width) :
    ∃ y, (rotateLeft width x shift).bind (rotateRight width · shift) = some y ∧ ∀ i, y.getLsbD i = (decide (i < width) && x.getLsbD i) := by
  obtain ⟨y, hy, y1, -⟩ := C83_rotate_left width shift x hw h0 h
  obtain ⟨z, hz, z1, z2⟩ := C83_rotate_right width shift y hw h0 h
  refine ⟨z, by rw [hy, Option.bind_some, hz], fun i => ?_⟩
  by_cases hi : i < width
  · rw [z1 i hi, y1 i hi]; simp [hi]
  · rw [z2 i (by omega)]; simp [hi]

/-- C83, refuted for rotations by nothing: over the full width of the word, which is the default, this shifts by the width of the word and is undefined. -/
theorem C83_rotate_zero_fails {w : Nat} (hw : 0 < w) (x : BitVec w) : rotateLeft w x 0 = none ∧ rotateRight w x 0 = none := by
  unfold rotateLeft rotateRight shl shr
  simp [hw]

/-- C83: inserting a bit shifts the bits from its position on up by one. -/
theorem C83_squeeze_in (x : Nat) (b : Bool) (p i : Nat) :
    (Haar.squeezeIn x b p).testBit i = if i < p then x.testBit i else if i = p then b else x.testBit (i - 1) := by
  unfold Haar.squeezeIn
  have hb : ∀ k, b.toNat.testBit k = (decide (k = 0) && b) := by
    intro k
    cases b
    · simp
    · show Nat.testBit 1 k = _
      rw [Bool.and_true, show (1 : Nat) = 2 ^ 0 from rfl, Nat.testBit_two_pow]
      simp [eq_comm]
  simp only [Nat.testBit_or, Nat.testBit_shiftLeft, Nat.testBit_and, Nat.one_shiftLeft, Nat.testBit_two_pow_sub_one, Nat.testBit_shiftRight, hb]
  by_cases h1 : i < p
  · have e1 : ¬ (p ≤ i) := by omega
    have e2 : ¬ (p ≤ i - 1) := by omega
    simp [h1, e1, e2]
  · by_cases h2 : i = p
    · subst h2
      have : ¬ (i ≤ i - 1 ∧ 1 ≤ i) := by omega
      by_cases h3 : 1 ≤ i
      · have : ¬ (i ≤ i - 1) := by omega
        simp [this]
      · simp [h3]
    · have e1 : 1 ≤ i := by omega
      have e2 : p ≤ i - 1 := by omega
      have e3 : i - p ≠ 0 := by omega
      have e4 : p + (i - 1 - p) = i - 1 := by omega
      simp [h1, h2, e1, e2, e3, e4]

/-! ## The hypotheses can be met -/

example : divExp2Floor (-5) 1 = -3 ∧ divExp2Ceil (-5) 1 = -2 ∧ divExp2FloorRemainder (-5) 1 = 1 := by decide
example : log2Floor 9 = 3 ∧ log2Ceil 9 = 4 ∧ log2Ceil 8 = 3 ∧ isPowerOfTwo 12 = false ∧ binomial 3 1 = 3 := by decide +kernel
example : rotateLeft 3 (5#8) 1 = some 3#8 ∧ rotateRight 3 (3#8) 1 = some 5#8 ∧ Haar.squeezeIn 2 true 1 = 6 := by decide +kernel

end Wavemap
