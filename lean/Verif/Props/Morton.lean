import Verif.Lemmas.Morton
import Mathlib.Data.Fin.VecNotation
/-!
# C01 – Morton index round trip

`Morton.encodeLut`/`decodeLut` are the look-up-table builds, `Morton.encodePdep`/`decodePext` the
builds with hardware bit deposit/extract of `convert::indexToMorton`/`mortonToIndex`.
-/
namespace Wavemap
open Morton

/-- The coordinates accepted for a round trip: non-negative and at most `2^31 - 1` in 1D and 2D,
`2^20 - 1` in 3D (the limits checked by `morton::encode<dim, true>`). -/
def MortonInRange {d : Nat} (index : Index d) : Prop :=
  ∀ i, 0 ≤ index i ∧ index i ≤ (if d < 3 then 2 ^ 31 - 1 else 2 ^ 20 - 1)

/-- The range above is the one the code checks. -/
theorem kMaxSingleCoordinate_values :
    kMaxSingleCoordinate 1 = 2 ^ 31 - 1 ∧ kMaxSingleCoordinate 2 = 2 ^ 31 - 1 ∧
      kMaxSingleCoordinate 3 = 2 ^ 20 - 1 := by decide

theorem inRange_bits {d : Nat} (hd : 1 ≤ d ∧ d ≤ 3) (index : Index d) (h : MortonInRange index)
    (i : Fin d) (k : Nat) (hk : ¬ d * (k + 1) ≤ 64) : ibit (index i) k = false := by
  obtain ⟨h0, h1⟩ := h i
  obtain rfl | rfl | rfl : d = 1 ∨ d = 2 ∨ d = 3 := by omega
  · exact ibit_eq_false_of_lt _ 31 _ h0 (by simp at h1; omega) (by omega)
  · exact ibit_eq_false_of_lt _ 31 _ h0 (by simp at h1; omega) (by omega)
  · exact ibit_eq_false_of_lt _ 20 _ h0 (by simp at h1; omega) (by omega)

theorem inRange_lt {d : Nat} (index : Index d) (h : MortonInRange index) (i : Fin d) :
    index i < 2 ^ 31 := by
  have := (h i).2
  split at this <;> omega

/-- Each Morton bit is the corresponding coordinate bit, look-up-table build: bit `k` of coordinate
`i` is bit `d*k+i` of the Morton index. -/
theorem C01_encodeLut_interleaves {d : Nat} (index : Index d) (i : Fin d) (k : Nat)
    (hk : k < 32) (hj : d * k + i.val < 64) :
    (encodeLut index).testBit (d * k + i.val) = decide (index i / 2 ^ k % 2 = 1) := by
  rw [encodeLut_testBit index i k hj]; simp [hk, ibit]

/-- The same for the bit-deposit build. -/
theorem C01_encodePdep_interleaves {d : Nat} (index : Index d) (i : Fin d) (k : Nat)
    (hj : d * k + i.val < 64) :
    (encodePdep index).testBit (d * k + i.val) = decide (index i / 2 ^ k % 2 = 1) :=
  encodePdep_testBit index i k hj

/-- Round trip, look-up-table encoder and decoder. -/
theorem C01_roundtrip_lut {d : Nat} (hd : 1 ≤ d ∧ d ≤ 3) (index : Index d)
    (h : MortonInRange index) : decodeLut d (encodeLut index) = index := by
  funext i
  apply toI32_of_bits _ _ (h i).1 (inRange_lt index h i)
  intro k hk
  rw [decodeCoordinateLut_testBit d _ i k hd]
  by_cases hk' : d * (k + 1) ≤ 64
  · have : d * k + i.val < 64 := by have := i.isLt; rw [Nat.mul_add] at hk'; omega
    rw [encodeLut_testBit index i k this]
    simp [hk', hk]
  · simp [hk', inRange_bits hd index h i k hk']

/-- Round trip, bit-deposit encoder and bit-extract decoder. -/
theorem C01_roundtrip_pdep {d : Nat} (hd : 1 ≤ d ∧ d ≤ 3) (index : Index d)
    (h : MortonInRange index) : decodePext d (encodePdep index) = index := by
  funext i
  apply toI32_of_bits _ _ (h i).1 (inRange_lt index h i)
  intro k hk
  rw [compress_testBit d _ i k]
  by_cases hk' : d * k + i.val < 64
  · rw [encodePdep_testBit index i k hk']; simp [hk']
  · have : ¬ d * (k + 1) ≤ 64 := by have := i.isLt; rw [Nat.mul_add]; omega
    simp [hk', inRange_bits hd index h i k this]

/-- Look-up-table and bit-deposit builds produce the same Morton index for every 32-bit coordinate,
negative ones included, in 2D and 3D. -/
theorem C01_lut_eq_pdep {d : Nat} (hd : 2 ≤ d) (index : Index d) :
    encodeLut index = encodePdep index := by
  apply eq_of_lanes (d := d) (by omega) (encodeLut_lt _) (encodePdep_lt _)
  intro i k hj
  rw [encodeLut_testBit index i k hj, encodePdep_testBit index i k hj]
  have : k < 32 := by
    have := Nat.mul_le_mul_right k hd
    omega
  simp [this]

/-- In 1D they agree for the coordinates accepted for a round trip. -/
theorem C01_lut_eq_pdep_1d_partial (index : Index 1) (h : MortonInRange index) :
    encodeLut index = encodePdep index := by
  apply eq_of_lanes (d := 1) (by omega) (encodeLut_lt _) (encodePdep_lt _)
  intro i k hj
  rw [encodeLut_testBit index i k hj, encodePdep_testBit index i k hj]
  by_cases hk : k < 32
  · simp [hk]
  · rw [ibit_eq_false_of_lt _ 31 k (h i).1 (inRange_lt index h i) (by omega)]; simp

/-- In 1D the two builds disagree on negative coordinates (which pass the code's range check when
`check_sign` is off): the bit-deposit build sign-extends to 64 bits, the table build does not. -/
theorem C01_lut_ne_pdep_1d_negative :
    ∃ index : Index 1, (∀ i, -kMaxSingleCoordinate 1 < index i ∧ index i ≤ kMaxSingleCoordinate 1) ∧
      encodeLut index ≠ encodePdep index := by
  refine ⟨fun _ => -1, by decide, ?_⟩
  intro h
  have h1 := encodeLut_testBit (fun _ : Fin 1 => (-1 : Int)) 0 40 (by decide)
  have h2 := encodePdep_testBit (fun _ : Fin 1 => (-1 : Int)) 0 40 (by decide)
  rw [h] at h1
  rw [h1] at h2
  revert h2
  decide

/-- Distinct indices in range get distinct Morton indices (either build). -/
theorem C01_injective {d : Nat} (hd : 1 ≤ d ∧ d ≤ 3) (a b : Index d)
    (ha : MortonInRange a) (hb : MortonInRange b) :
    (encodeLut a = encodeLut b → a = b) ∧ (encodePdep a = encodePdep b → a = b) := by
  constructor
  · intro h; rw [← C01_roundtrip_lut hd a ha, ← C01_roundtrip_lut hd b hb, h]
  · intro h; rw [← C01_roundtrip_pdep hd a ha, ← C01_roundtrip_pdep hd b hb, h]

/-- Conversely every Morton index below `2^(20*3)` (3D), `2^62` (2D) or `2^31` (1D) is the code of the
index it decodes to. -/
theorem C01_decode_encode {d : Nat} (hd : 1 ≤ d ∧ d ≤ 3) (m : Nat)
    (hm : m < 2 ^ (d * (if d < 3 then 31 else 20))) :
    encodeLut (decodeLut d m) = m := by
  have hdec : ∀ i : Fin d, ∀ k, ibit (decodeLut d m i) k
      = (decide (k < (if d < 3 then 31 else 20)) && m.testBit (d * k + i.val)) := by
    intro i
    have hb : ∀ k, (decodeCoordinateLut d m i.val).testBit k
        = (decide (k < (if d < 3 then 31 else 20)) && m.testBit (d * k + i.val)) := by
      intro k
      rw [decodeCoordinateLut_testBit d m i k hd]
      have hi := i.isLt
      by_cases hk : k < (if d < 3 then 31 else 20)
      · have : d * (k + 1) ≤ 64 := by
          obtain rfl | rfl | rfl : d = 1 ∨ d = 2 ∨ d = 3 := by omega
          all_goals (simp at hk; omega)
        simp [hk, this]
      · have hz : m.testBit (d * k + i.val) = false := by
          apply Nat.testBit_lt_two_pow
          apply Nat.lt_of_lt_of_le hm
          apply Nat.pow_le_pow_right (by decide)
          have := Nat.mul_le_mul_left d (Nat.le_of_not_lt hk)
          omega
        simp [hz]
    have hlt : decodeCoordinateLut d m i.val < 2 ^ 31 := by
      apply Nat.lt_pow_two_of_testBit
      intro k hk
      rw [hb]
      have : ¬ k < (if d < 3 then 31 else 20) := by split <;> omega
      simp [this]
    intro k
    have hv : decodeLut d m i = (decodeCoordinateLut d m i.val : Int) := by
      unfold decodeLut toI32
      have h2 : decodeCoordinateLut d m i.val % 2 ^ 32 = decodeCoordinateLut d m i.val :=
        Nat.mod_eq_of_lt (by omega)
      simp only [h2, hlt, if_true]
    rw [hv, ← toNat_testBit_of_nonneg _ (by omega), Int.toNat_natCast, hb]
  apply eq_of_lanes (d := d) hd.1 (encodeLut_lt _)
  · apply Nat.lt_of_lt_of_le hm
    apply Nat.pow_le_pow_right (by decide)
    obtain rfl | rfl | rfl : d = 1 ∨ d = 2 ∨ d = 3 := by omega
    all_goals decide
  · intro i k hj
    rw [encodeLut_testBit _ i k hj, hdec]
    by_cases hk : k < (if d < 3 then 31 else 20)
    · have : k < 32 := by split at hk <;> omega
      simp [hk, this]
    · have hz : m.testBit (d * k + i.val) = false := by
        apply Nat.testBit_lt_two_pow
        apply Nat.lt_of_lt_of_le hm
        apply Nat.pow_le_pow_right (by decide)
        have := Nat.mul_le_mul_left d (Nat.le_of_not_lt hk)
        omega
      simp [hz]

/-- Non-vacuity: a 3D index at the upper limit satisfies the hypotheses. -/
example : MortonInRange (d := 3) ![2 ^ 20 - 1, 5, 0] := by
  unfold MortonInRange; decide

end Wavemap
