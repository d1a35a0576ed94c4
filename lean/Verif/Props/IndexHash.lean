import Verif.Model.IndexHash
import Mathlib.Tactic.FinCases
import Mathlib.Data.Fintype.Basic
/-!
# C86: the layers of different blocks have different names

The rendering engine keeps the objects of a scene node in a table by name: two layers of one display must not have the same name.
-/
namespace Wavemap
namespace IndexHash

/-! ## The hash -/

theorem timesCoefficient_mod (c : Nat) (x : Int) : (timesCoefficient c x : Int) = c * x % 2 ^ 64 := by
  unfold timesCoefficient
  exact Int.toNat_of_nonneg (Int.emod_nonneg _ (by decide))

theorem accumulate_mod (acc c : Nat) (x : Int) : (accumulate acc c x : Int) = (acc + c * x) % 2 ^ 32 := by
  unfold accumulate
  push_cast
  rw [timesCoefficient_mod]
  generalize (c : Int) * x = y
  omega

theorem hash_eq (k : Index 3) : (hash k : Int) = (k 0 + 17191 * k 1 + 295530481 * k 2) % 2 ^ 32 := by
  unfold hash
  simp only [accumulate_mod]
  omega

theorem lattice (x y z k : Int) (h : x + 17191 * y + 295530481 * z = 4294967296 * k) (hx : -811 ≤ x ∧ x ≤ 811) (hy : -811 ≤ y ∧ y ≤ 811) (hz : -811 ≤ z ∧ z ≤ 811) :
    x = 0 ∧ y = 0 ∧ z = 0 := by
  have h1 : -249780 * x + 999316 * y - 627828 * z = 4294967296 * (-249780 * k + y + 17187 * z) := by omega
  have h2 : -499778 * x - 1749006 * y - 2391074 * z = 4294967296 * (-499778 * k + 2 * y + 34389 * z) := by omega
  have e1 : -249780 * x + 999316 * y - 627828 * z = 0 := by
    generalize -249780 * k + y + 17187 * z = q at h1
    have : q = 0 := by omega
    omega
  have e2 : -499778 * x - 1749006 * y - 2391074 * z = 0 := by
    generalize -499778 * k + 2 * y + 34389 * z = q at h2
    have : q = 0 := by omega
    omega
  omega

theorem hash_injective {a b : Index 3} (h : hash a = hash b) (hab : ∀ i, |a i - b i| ≤ 811) : a = b := by
  have e : (hash a : Int) = hash b := by rw [h]
  rw [hash_eq, hash_eq] at e
  have h0 := abs_le.1 (hab 0)
  have h1 := abs_le.1 (hab 1)
  have h2 := abs_le.1 (hab 2)
  have := lattice (a 0 - b 0) (a 1 - b 1) (a 2 - b 2) ((a 0 + 17191 * a 1 + 295530481 * a 2) / 4294967296 - (b 0 + 17191 * b 1 + 295530481 * b 2) / 4294967296)
    (by omega) h0 h1 h2
  funext i
  fin_cases i
  · exact Int.sub_eq_zero.1 this.1
  · exact Int.sub_eq_zero.1 this.2.1
  · exact Int.sub_eq_zero.1 this.2.2

/-! ## Names -/

theorem toString_injective {m n : Nat} (h : toString m = toString n) : m = n := by
  rw [Nat.toString_eq_ofList_toDigits, Nat.toString_eq_ofList_toDigits, String.ofList_inj] at h
  rw [← Nat.ofDigitChars_toDigits (b := 10) (n := m) (by decide) (by decide), h, Nat.ofDigitChars_toDigits (by decide) (by decide)]

theorem append_injective {p q r s : List Char} (hp : '_' ∉ p) (hq : '_' ∉ q) (h : p ++ '_' :: r = q ++ '_' :: s) : p = q ∧ r = s := by
  induction p generalizing q with
  | nil =>
    cases q with
    | nil => simpa using h
    | cons c q => simp only [List.nil_append, List.cons_append, List.cons.injEq] at h; exact absurd (h.1 ▸ List.mem_cons_self) hq
  | cons c p ih =>
    cases q with
    | nil => simp only [List.nil_append, List.cons_append, List.cons.injEq] at h; exact absurd (h.1 ▸ List.mem_cons_self) hp
    | cons d q =>
      simp only [List.cons_append, List.cons.injEq] at h
      obtain ⟨h1, h2⟩ := ih (fun hm => hp (List.mem_cons_of_mem _ hm)) (fun hm => hq (List.mem_cons_of_mem _ hm)) h.2
      exact ⟨by rw [h.1, h1], h2⟩

theorem layerName_injective {a b : Index 3} {d e : Nat} (h : layerName a d = layerName b e) : hash a = hash b ∧ d = e := by
  unfold layerName at h
  have h' := congrArg String.toList h
  simp only [String.toList_append, List.append_assoc] at h'
  replace h' := List.append_cancel_left h'
  have hu : ("_" : String).toList = ['_'] := rfl
  rw [hu] at h'
  simp only [List.singleton_append] at h'
  have hd : ∀ n : Nat, '_' ∉ (toString n).toList := by
    intro n
    rw [Nat.toString_eq_ofList_toDigits, String.toList_ofList]
    exact Nat.underscore_not_in_toDigits
  obtain ⟨h1, h2⟩ := append_injective (hd _) (hd _) h'
  exact ⟨toString_injective (String.toList_inj.1 h1), toString_injective (String.toList_inj.1 h2)⟩

end IndexHash

open IndexHash

/-- C86, hash: it is the polynomial of the index in 17191, modulo 2 to the 32. Half of the bits of its 64-bit result are never used. -/
theorem C86_hash (k : Index 3) : (hash k : Int) = (k 0 + 17191 * k 1 + 17191 ^ 2 * k 2) % 2 ^ 32 := hash_eq k

/-- C86: if all blocks of a map lie within 811 blocks of each other along each axis, all layers of a display have different names: layers with the same name belong to the same block and
level. -/
theorem C86_names_partial {a b : Index 3} {d e : Nat} (hab : ∀ i, |a i - b i| ≤ 811) (h : layerName a d = layerName b e) : a = b ∧ d = e :=
  ⟨hash_injective (layerName_injective h).1 hab, (layerName_injective h).2⟩

/-- The hypothesis is met by two blocks at the largest distance. -/
example : (∀ i, |(![-400, 0, 411] : Index 3) i - (![411, -811, -400] : Index 3) i| ≤ 811) ∧ layerName ![-400, 0, 411] 3 ≠ layerName ![411, -811, -400] 3 := by
  have h : ∀ i, |(![-400, 0, 411] : Index 3) i - (![411, -811, -400] : Index 3) i| ≤ 811 := by decide
  exact ⟨h, fun e => absurd (congrFun (C86_names_partial h e).1 0) (by decide)⟩

/-- Finding: 811 is the most that can be said. Blocks that are 812, 66 and -218 blocks apart have the same names, wherever they are. -/
theorem C86_names_fails (k : Index 3) (depth : Nat) : layerName k depth = layerName (fun i => k i + (![812, 66, -218] : Index 3) i) depth := by
  unfold layerName
  congr 4
  have : (hash k : Int) = hash (fun i => k i + (![812, 66, -218] : Index 3) i) := by
    rw [hash_eq, hash_eq]
    change _ = (k 0 + 812 + 17191 * (k 1 + 66) + 295530481 * (k 2 + -218)) % 2 ^ 32
    omega
  exact_mod_cast this

end Wavemap
