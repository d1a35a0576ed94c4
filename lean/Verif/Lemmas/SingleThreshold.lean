import Verif.Lemmas.SingleMaps
import Verif.Lemmas.WaveletOps
import Mathlib.Data.Fintype.Basic
import Mathlib.Tactic.FinCases
/-! # Helper lemmas about thresholding in single precision -/
namespace Wavemap
open Haar NTree

namespace Rounded

/-- One pass of the forward transform. -/
def fwdPass (r : ℚ → ℚ) (k : Nat) (a : Coeffs 3) : Coeffs 3 := (List.range (exp2 2)).foldl (forwardBeam r k) a

/-- One pass of the inverse transform. -/
def bwdPass (r : ℚ → ℚ) (k : Nat) (a : Coeffs 3) : Coeffs 3 := (List.range (exp2 2)).foldl (backwardBeam r k) a

theorem forward_passes (r : ℚ → ℚ) (x : Coeffs 3) : forward r x = Parent.ofArray (fwdPass r 2 (fwdPass r 1 (fwdPass r 0 x))) := rfl

theorem backward_passes (r : ℚ → ℚ) (p : Parent 3) : backward r p = bwdPass r 2 (bwdPass r 1 (bwdPass r 0 p.get)) := rfl

theorem forward_id (x : Coeffs 3) : forward id x = Haar.forward 3 x := rfl
theorem backward_id (p : Parent 3) : backward id p = Haar.backward 3 p := rfl

theorem recThreshold_id (lo hi : ℚ) (t : WTree) (s : ℚ) : recThreshold id lo hi t s = WTree.recThreshold lo hi t s := by
  induction t generalizing s with
  | nil => rfl
  | leaf a => simp only [recThreshold, WTree.recThreshold, forward_id, backward_id]
  | node a ch ih => simp only [recThreshold, WTree.recThreshold, forward_id, backward_id, ih]

/-- The partner of an index along an axis. -/
def partner (k : Nat) (i : Fin (2 ^ 3)) : Fin (2 ^ 3) := ⟨(i.val ^^^ 2 ^ k) % 2 ^ 3, Nat.mod_lt _ (by decide)⟩

theorem bwdPass_eq (r : ℚ → ℚ) (k : Nat) (hk : k < 3) (a : Coeffs 3) (i : Fin (2 ^ 3)) :
    bwdPass r k a i = if i.val.testBit k then r (a i + r (a (partner k i) - r (1 / 2 * a i))) else r (a i - r (1 / 2 * a (partner k i))) := by
  obtain rfl | rfl | rfl : k = 0 ∨ k = 1 ∨ k = 2 := by omega
  all_goals fin_cases i <;> rfl

theorem fwdPass_eq (r : ℚ → ℚ) (k : Nat) (hk : k < 3) (a : Coeffs 3) (i : Fin (2 ^ 3)) :
    fwdPass r k a i = if i.val.testBit k then r (a i - a (partner k i)) else r (a i + r (1 / 2 * r (a (partner k i) - a i))) := by
  obtain rfl | rfl | rfl : k = 0 ∨ k = 1 ∨ k = 2 := by omega
  all_goals fin_cases i <;> rfl

theorem half_exact {t : ℚ} (h : IsFloat t) : fl (1 / 2 * t) = 1 / 2 * t := by
  have := h.div_pow 1
  rw [show 1 / 2 * t = t / 2 ^ 1 by ring]
  exact fl_of_isFloat this

theorem fl_near {y yE e X : ℚ} (h : |y - yE| ≤ e) (hX : |yE| ≤ X) : |fl y - yE| ≤ e + (X + e) * ulp1 := by
  have h1 := fl_err' y
  have h2 : |y| ≤ X + e := by
    have : y = yE + (y - yE) := by ring
    rw [this]; exact (abs_add_le _ _).trans (add_le_add hX h)
  have h3 := mul_le_mul_of_nonneg_right h2 ulp1_pos.le
  have : fl y - yE = (fl y - y) + (y - yE) := by ring
  rw [this]
  exact (abs_add_le _ _).trans ((add_le_add (h1.trans h3) h).trans (le_of_eq (by ring)))

theorem ulp1_le : ulp1 ≤ 1 / 1000000 := by unfold ulp1; norm_num

theorem bwd_pair {s t sE tE W h X : ℚ} (hW : 0 ≤ W) (hh : 0 ≤ h) (hX : 0 ≤ X) (hs : |s - sE| ≤ W * h) (ht : |t - tE| ≤ 2 * W * h) (hsE : |sE| ≤ W * X) (htE : |tE| ≤ 2 * W * X)
    (hf : IsFloat t) :
    |fl (s - fl (1 / 2 * t)) - (sE - 1 / 2 * tE)| ≤ W * (2 * h + 5 * (X + h) * ulp1) ∧
    |fl (t + fl (s - fl (1 / 2 * t))) - (tE + (sE - 1 / 2 * tE))| ≤ W * (2 * h + 5 * (X + h) * ulp1) ∧
    |sE - 1 / 2 * tE| ≤ W * (2 * X) ∧ |tE + (sE - 1 / 2 * tE)| ≤ W * (2 * X) := by
  rw [half_exact hf]
  have b1 : |sE - 1 / 2 * tE| ≤ W * (2 * X) := by
    rw [abs_le] at hsE htE ⊢; constructor <;> linarith [hsE.1, hsE.2, htE.1, htE.2]
  have b2 : |tE + (sE - 1 / 2 * tE)| ≤ W * (2 * X) := by
    rw [abs_le] at hsE htE ⊢; constructor <;> linarith [hsE.1, hsE.2, htE.1, htE.2]
  have d1 : |(s - 1 / 2 * t) - (sE - 1 / 2 * tE)| ≤ 2 * W * h := by
    rw [abs_le] at hs ht ⊢; constructor <;> linarith [hs.1, hs.2, ht.1, ht.2]
  have hu := ulp1_pos
  have hWX : 0 ≤ W * (X + h) * ulp1 := by positivity
  have e0 := fl_err' (s - 1 / 2 * t)
  have a0 : |s - 1 / 2 * t| ≤ 2 * W * (X + h) := by
    have : s - 1 / 2 * t = (sE - 1 / 2 * tE) + ((s - 1 / 2 * t) - (sE - 1 / 2 * tE)) := by ring
    rw [this]; exact (abs_add_le _ _).trans ((add_le_add b1 d1).trans (le_of_eq (by ring)))
  have e0' := e0.trans (mul_le_mul_of_nonneg_right a0 hu.le)
  generalize hρ : fl (s - 1 / 2 * t) - (s - 1 / 2 * t) = ρ at e0'
  have hsf : fl (s - 1 / 2 * t) = s - 1 / 2 * t + ρ := by rw [← hρ]; ring
  rw [hsf]
  refine ⟨?_, ?_, b1, b2⟩
  · have : s - 1 / 2 * t + ρ - (sE - 1 / 2 * tE) = ((s - 1 / 2 * t) - (sE - 1 / 2 * tE)) + ρ := by ring
    rw [this]
    refine (abs_add_le _ _).trans ((add_le_add d1 e0').trans ?_)
    nlinarith
  · have d2 : |(t + (s - 1 / 2 * t + ρ)) - (tE + (sE - 1 / 2 * tE))| ≤ 2 * W * h + 2 * W * (X + h) * ulp1 := by
      rw [abs_le] at hs ht e0' ⊢; constructor <;> linarith [hs.1, hs.2, ht.1, ht.2, e0'.1, e0'.2]
    refine (fl_near d2 b2).trans ?_
    have h1 : W * (X + h) * ulp1 * ulp1 ≤ W * (X + h) * ulp1 * (1 / 1000000) := mul_le_mul_of_nonneg_left ulp1_le hWX
    nlinarith

theorem fwd_pair {s t sE tE W h X : ℚ} (hW : 0 ≤ W) (hh : 0 ≤ h) (hX : 0 ≤ X) (hs : |s - sE| ≤ W * h) (ht : |t - tE| ≤ W * h) (hsE : |sE| ≤ W * X) (htE : |tE| ≤ W * X) :
    |fl (t - s) - (tE - sE)| ≤ 2 * W * (h + 9 / 4 * (X + h) * ulp1) ∧
    |fl (s + fl (1 / 2 * fl (t - s))) - (sE + 1 / 2 * (tE - sE))| ≤ W * (h + 9 / 4 * (X + h) * ulp1) ∧
    |tE - sE| ≤ 2 * W * X ∧ |sE + 1 / 2 * (tE - sE)| ≤ W * X := by
  rw [half_exact (isFloat_fl _)]
  have b1 : |tE - sE| ≤ 2 * W * X := by
    rw [abs_le] at hsE htE ⊢; constructor <;> linarith [hsE.1, hsE.2, htE.1, htE.2]
  have b2 : |sE + 1 / 2 * (tE - sE)| ≤ W * X := by
    rw [abs_le] at hsE htE ⊢; constructor <;> linarith [hsE.1, hsE.2, htE.1, htE.2]
  have d1 : |(t - s) - (tE - sE)| ≤ 2 * W * h := by
    rw [abs_le] at hs ht ⊢; constructor <;> linarith [hs.1, hs.2, ht.1, ht.2]
  have hu := ulp1_pos
  have hWX : 0 ≤ W * (X + h) * ulp1 := by positivity
  have e0 := fl_err' (t - s)
  have a0 : |t - s| ≤ 2 * W * (X + h) := by
    have : t - s = (tE - sE) + ((t - s) - (tE - sE)) := by ring
    rw [this]; exact (abs_add_le _ _).trans ((add_le_add b1 d1).trans (le_of_eq (by ring)))
  have e0' := e0.trans (mul_le_mul_of_nonneg_right a0 hu.le)
  generalize hρ : fl (t - s) - (t - s) = ρ at e0'
  have hsf : fl (t - s) = t - s + ρ := by rw [← hρ]; ring
  rw [hsf]
  refine ⟨?_, ?_, b1, b2⟩
  · have : t - s + ρ - (tE - sE) = ((t - s) - (tE - sE)) + ρ := by ring
    rw [this]
    refine (abs_add_le _ _).trans ((add_le_add d1 e0').trans ?_)
    nlinarith
  · have d2 : |(s + 1 / 2 * (t - s + ρ)) - (sE + 1 / 2 * (tE - sE))| ≤ W * h + W * (X + h) * ulp1 := by
      rw [abs_le] at hs ht e0' ⊢; constructor <;> linarith [hs.1, hs.2, ht.1, ht.2, e0'.1, e0'.2]
    refine (fl_near d2 b2).trans ?_
    have h1 : W * (X + h) * ulp1 * ulp1 ≤ W * (X + h) * ulp1 * (1 / 1000000) := mul_le_mul_of_nonneg_left ulp1_le hWX
    nlinarith

/-- The weight of an entry when the axes below `k` have been transformed back. -/
def bwdWeight (k : Nat) (i : Fin (2 ^ 3)) : Nat := 2 ^ popcount (i.val >>> k)

/-- The weight of an entry when the axes below `k` have been transformed. -/
def fwdWeight (k : Nat) (i : Fin (2 ^ 3)) : Nat := 2 ^ popcount (i.val % 2 ^ k)

theorem bwd_pass_close {k : Nat} (hk : k < 3) {a aE : Coeffs 3} {h X : ℚ} (hh : 0 ≤ h) (hX : 0 ≤ X) (hf : ∀ i, IsFloat (a i))
    (he : ∀ i, |a i - aE i| ≤ bwdWeight k i * h) (hb : ∀ i, |aE i| ≤ bwdWeight k i * X) (i : Fin (2 ^ 3)) :
    IsFloat (bwdPass fl k a i) ∧ |bwdPass fl k a i - bwdPass id k aE i| ≤ bwdWeight (k + 1) i * (2 * h + 5 * (X + h) * ulp1) ∧
      |bwdPass id k aE i| ≤ bwdWeight (k + 1) i * (2 * X) := by
  have hw : ∀ (k : Fin 3) (i : Fin (2 ^ 3)), if i.val.testBit k then bwdWeight k i = 2 * bwdWeight (k.val + 1) i ∧ bwdWeight k (partner k i) = bwdWeight (k.val + 1) i
      else bwdWeight k i = bwdWeight (k.val + 1) i ∧ bwdWeight k (partner k i) = 2 * bwdWeight (k.val + 1) i := by decide
  have hw := hw ⟨k, hk⟩ i
  dsimp only at hw
  have e1 := he i
  have e2 := he (partner k i)
  have b1 := hb i
  have b2 := hb (partner k i)
  rw [bwdPass_eq _ _ hk, bwdPass_eq _ _ hk]
  have hWn : (0 : ℚ) ≤ (bwdWeight (k + 1) i : ℚ) := by positivity
  by_cases ht : i.val.testBit k
  · rw [if_pos ht] at hw ⊢
    rw [if_pos ht]
    rw [hw.1] at e1 b1; rw [hw.2] at e2 b2
    push_cast at e1 b1
    obtain ⟨-, h2, -, h4⟩ := bwd_pair hWn hh hX e2 e1 b2 b1 (hf i)
    exact ⟨isFloat_fl _, h2, h4⟩
  · rw [if_neg ht] at hw ⊢
    rw [if_neg ht]
    rw [hw.1] at e1 b1; rw [hw.2] at e2 b2
    push_cast at e2 b2
    obtain ⟨h1, -, h3, -⟩ := bwd_pair hWn hh hX e1 e2 b1 b2 (hf _)
    exact ⟨isFloat_fl _, h1, h3⟩

theorem fwd_pass_close {k : Nat} (hk : k < 3) {a aE : Coeffs 3} {h X : ℚ} (hh : 0 ≤ h) (hX : 0 ≤ X)
    (he : ∀ i, |a i - aE i| ≤ fwdWeight k i * h) (hb : ∀ i, |aE i| ≤ fwdWeight k i * X) (i : Fin (2 ^ 3)) :
    IsFloat (fwdPass fl k a i) ∧ |fwdPass fl k a i - fwdPass id k aE i| ≤ fwdWeight (k + 1) i * (h + 9 / 4 * (X + h) * ulp1) ∧
      |fwdPass id k aE i| ≤ fwdWeight (k + 1) i * X := by
  have hw : ∀ (k : Fin 3) (i : Fin (2 ^ 3)), fwdWeight k (partner k i) = fwdWeight k i ∧
      if i.val.testBit k then fwdWeight (k.val + 1) i = 2 * fwdWeight k i else fwdWeight (k.val + 1) i = fwdWeight k i := by decide
  have hw := hw ⟨k, hk⟩ i
  dsimp only at hw
  have e1 := he i
  have e2 := he (partner k i)
  have b1 := hb i
  have b2 := hb (partner k i)
  rw [hw.1] at e2 b2
  have hw := hw.2
  rw [fwdPass_eq _ _ hk, fwdPass_eq _ _ hk]
  have hWn : (0 : ℚ) ≤ (fwdWeight k i : ℚ) := by positivity
  by_cases ht : i.val.testBit k
  · rw [if_pos ht] at hw ⊢
    rw [if_pos ht, hw]
    push_cast
    obtain ⟨h1, -, h3, -⟩ := fwd_pair hWn hh hX e2 e1 b2 b1
    exact ⟨isFloat_fl _, h1, h3⟩
  · rw [if_neg ht] at hw ⊢
    rw [if_neg ht, hw]
    obtain ⟨-, h2, -, h4⟩ := fwd_pair hWn hh hX e1 e2 b1 b2
    exact ⟨isFloat_fl _, h2, h4⟩

/-- The error of the inverse transform. -/
theorem backward_close (p : Parent 3) (B : ℚ) (hB : 0 ≤ B) (hs : IsFloat p.scale) (hd : ∀ i, IsFloat (p.details i)) (hsB : |p.scale| ≤ B)
    (hdB : ∀ i, |p.details i| ≤ detailWeight i * B) (c : Fin (2 ^ 3)) :
    IsFloat (backward fl p c) ∧ |backward fl p c - Haar.backward 3 p c| ≤ 63 * (B * ulp1) := by
  have hg : ∀ i, IsFloat (p.get i) ∧ |p.get i| ≤ bwdWeight 0 i * B := by
    intro i
    unfold Parent.get
    split
    · next h =>
      refine ⟨hs, ?_⟩
      have : bwdWeight 0 i = 1 := by
        have : i = ⟨0, by decide⟩ := Fin.ext h
        rw [this]; decide
      rw [this]; simpa using hsB
    · next h =>
      refine ⟨hd _, ?_⟩
      have := hdB ⟨i.val - 1, by omega⟩
      unfold detailWeight at this
      rw [exp2_cast] at this
      unfold bwdWeight
      have e : i.val - 1 + 1 = i.val := by omega
      simp only [e] at this
      push_cast
      simpa using this
  have hu := ulp1_pos
  have hBu : 0 ≤ B * ulp1 := by positivity
  rw [← backward_id, backward_passes, backward_passes]
  have p1 := bwd_pass_close (k := 0) (by decide) (a := p.get) (aE := p.get) (h := 0) (X := B) (le_refl _) hB (fun i => (hg i).1) (fun i => by simp) (fun i => (hg i).2)
  have p2 := bwd_pass_close (k := 1) (by decide) (h := 2 * 0 + 5 * (B + 0) * ulp1) (X := 2 * B) (by positivity) (by positivity) (fun i => (p1 i).1) (fun i => (p1 i).2.1) (fun i => (p1 i).2.2)
  have p3 := bwd_pass_close (k := 2) (by decide) (h := 2 * (2 * 0 + 5 * (B + 0) * ulp1) + 5 * (2 * B + (2 * 0 + 5 * (B + 0) * ulp1)) * ulp1) (X := 2 * (2 * B)) (by positivity) (by positivity)
    (fun i => (p2 i).1) (fun i => (p2 i).2.1) (fun i => (p2 i).2.2) c
  refine ⟨p3.1, p3.2.1.trans ?_⟩
  have hw : ∀ i, bwdWeight 3 i = 1 := by decide
  rw [hw c]
  have h1 : B * ulp1 * ulp1 ≤ B * ulp1 * (1 / 1000000) := mul_le_mul_of_nonneg_left ulp1_le hBu
  have h2 : B * ulp1 * ulp1 * ulp1 ≤ B * ulp1 * ulp1 * (1 / 1000000) := mul_le_mul_of_nonneg_left ulp1_le (by positivity)
  push_cast
  nlinarith

/-- The error of the forward transform. -/
theorem forward_close (x : Coeffs 3) (B : ℚ) (hB : 0 ≤ B) (hx : ∀ c, |x c| ≤ B) :
    (IsFloat (forward fl x).scale ∧ ∀ i, IsFloat ((forward fl x).details i)) ∧ |(forward fl x).scale - (Haar.forward 3 x).scale| ≤ 7 * (B * ulp1) ∧
      ∀ i, |(forward fl x).details i - (Haar.forward 3 x).details i| ≤ detailWeight i * (7 * (B * ulp1)) := by
  have hu := ulp1_pos
  have hBu : 0 ≤ B * ulp1 := by positivity
  have hw0 : ∀ i, fwdWeight 0 i = 1 := by decide
  have p1 := fwd_pass_close (k := 0) (by decide) (a := x) (aE := x) (h := 0) (X := B) (le_refl _) hB (fun i => by simp) (fun i => by rw [hw0]; simpa using hx i)
  have p2 := fwd_pass_close (k := 1) (by decide) (h := 0 + 9 / 4 * (B + 0) * ulp1) (X := B) (by positivity) hB (fun i => (p1 i).2.1) (fun i => (p1 i).2.2)
  have p3 := fwd_pass_close (k := 2) (by decide) (h := (0 + 9 / 4 * (B + 0) * ulp1) + 9 / 4 * (B + (0 + 9 / 4 * (B + 0) * ulp1)) * ulp1) (X := B) (by positivity) hB
    (fun i => (p2 i).2.1) (fun i => (p2 i).2.2)
  have key : ∀ i, IsFloat (fwdPass fl 2 (fwdPass fl 1 (fwdPass fl 0 x)) i) ∧
      |fwdPass fl 2 (fwdPass fl 1 (fwdPass fl 0 x)) i - fwdPass id 2 (fwdPass id 1 (fwdPass id 0 x)) i| ≤ 2 ^ popcount i.val * (7 * (B * ulp1)) := by
    intro i
    refine ⟨(p3 i).1, (p3 i).2.1.trans ?_⟩
    have hw : ∀ i, fwdWeight 3 i = 2 ^ popcount i.val := by decide
    rw [hw i]
    push_cast
    apply mul_le_mul_of_nonneg_left _ (by positivity)
    have h1 : B * ulp1 * ulp1 ≤ B * ulp1 * (1 / 1000000) := mul_le_mul_of_nonneg_left ulp1_le hBu
    have h2 : B * ulp1 * ulp1 * ulp1 ≤ B * ulp1 * ulp1 * (1 / 1000000) := mul_le_mul_of_nonneg_left ulp1_le (by positivity)
    nlinarith
  rw [← forward_id, forward_passes, forward_passes]
  refine ⟨⟨(key ⟨0, by decide⟩).1, fun i => (key ⟨i.val + 1, by omega⟩).1⟩, ?_, fun i => ?_⟩
  · have := (key ⟨0, by decide⟩).2
    rw [show popcount (0 : Nat) = 0 from rfl, pow_zero, one_mul] at this
    exact this
  · unfold detailWeight; rw [exp2_cast]
    exact (key ⟨i.val + 1, by omega⟩).2

/-- Bounds on the end values bound the values of all nodes. -/
theorem paths_bound {n : Nat} {t : WTree} {s A : ℚ} (h : ∀ q : List (Fin (2 ^ 3)), q.length = n → |t.getValue s q| ≤ A) (q : List (Fin (2 ^ 3))) (hq : q.length ≤ n) :
    |t.getValue s q| ≤ A := by
  generalize hn : n - q.length = m
  induction m generalizing q with
  | zero => exact h q (by omega)
  | succ m ih =>
    have hm := WTree.getValue_mean t s q
    have hc : ∀ c, |t.getValue s (q ++ [c])| ≤ A := fun c => ih (q ++ [c]) (by simp; omega) (by simp; omega)
    have h8 : ∀ f : Fin (2 ^ 3) → ℚ, (∀ c, |f c| ≤ A) → |sum8 f| ≤ 8 * A := by
      intro f hf
      have hl : ∀ l : List (Fin (2 ^ 3)), |(l.map f).sum| ≤ l.length * A := by
        intro l
        induction l with
        | nil => simp
        | cons c l ih =>
          rw [List.map_cons, List.sum_cons, List.length_cons]
          refine (abs_add_le _ _).trans ((add_le_add (hf c) ih).trans ?_)
          push_cast; linarith
      have := hl (List.finRange (2 ^ 3))
      rw [List.length_finRange] at this
      norm_num at this ⊢
      exact this
    have := h8 _ hc
    rw [hm, abs_mul, abs_of_pos (by norm_num : (0 : ℚ) < 8)] at this
    linarith

/-- The same for differences. -/
theorem paths_close {n : Nat} {t t' : WTree} {s s' ε : ℚ} (h : ∀ q : List (Fin (2 ^ 3)), q.length = n → |t.getValue s q - t'.getValue s' q| ≤ ε)
    (q : List (Fin (2 ^ 3))) (hq : q.length ≤ n) : |t.getValue s q - t'.getValue s' q| ≤ ε := by
  generalize hn : n - q.length = m
  induction m generalizing q with
  | zero => exact h q (by omega)
  | succ m ih =>
    have hm := WTree.getValue_mean t s q
    have hm' := WTree.getValue_mean t' s' q
    have hc : ∀ c, |t.getValue s (q ++ [c]) - t'.getValue s' (q ++ [c])| ≤ ε := fun c => ih (q ++ [c]) (by simp; omega) (by simp; omega)
    have h8 : ∀ f g : Fin (2 ^ 3) → ℚ, (∀ c, |f c - g c| ≤ ε) → |sum8 f - sum8 g| ≤ 8 * ε := by
      intro f g hf
      have hl : ∀ l : List (Fin (2 ^ 3)), |(l.map f).sum - (l.map g).sum| ≤ l.length * ε := by
        intro l
        induction l with
        | nil => simp
        | cons c l ih =>
          rw [List.map_cons, List.sum_cons, List.map_cons, List.sum_cons, List.length_cons]
          have e : f c + (l.map f).sum - (g c + (l.map g).sum) = (f c - g c) + ((l.map f).sum - (l.map g).sum) := by ring
          rw [e]
          refine (abs_add_le _ _).trans ((add_le_add (hf c) ih).trans ?_)
          push_cast; linarith
      have := hl (List.finRange (2 ^ 3))
      rw [List.length_finRange] at this
      norm_num at this ⊢
      exact this
    have := h8 _ _ hc
    rw [hm, hm', ← mul_sub, abs_mul, abs_of_pos (by norm_num : (0 : ℚ) < 8)] at this
    linarith

theorem clamp_nonexpansive {lo hi : ℚ} (h : lo ≤ hi) (x y : ℚ) : |clamp lo hi x - clamp lo hi y| ≤ |x - y| := by
  have h1 := le_abs_self (x - y)
  have h2 := neg_abs_le (x - y)
  rw [abs_le]
  unfold clamp
  constructor <;> split_ifs <;> linarith

theorem clamp_abs {lo hi X : ℚ} (hlo : |lo| ≤ X) (hhi : |hi| ≤ X) {v : ℚ} (hv : |v| ≤ X) : |clamp lo hi v| ≤ X := by
  unfold clamp; split_ifs <;> assumption

/-- Values of the children after thresholding them. -/
def thrVals (lo hi : ℚ) (t : WTree) (s : ℚ) : Coeffs 3 := fun c => (recThreshold fl lo hi (t.child c) (backward fl ⟨s, WTree.details t⟩ c)).2

theorem recThreshold_scale (lo hi : ℚ) (t : WTree) (ht : t ≠ .nil) (s : ℚ) : (recThreshold fl lo hi t s).2 = (forward fl (thrVals lo hi t s)).scale := by
  cases t with
  | nil => exact absurd rfl ht
  | leaf a => rfl
  | node a ch => rfl

theorem recThreshold_details (lo hi : ℚ) (t : WTree) (ht : t ≠ .nil) (s : ℚ) : WTree.details (recThreshold fl lo hi t s).1 = (forward fl (thrVals lo hi t s)).details := by
  cases t with
  | nil => exact absurd rfl ht
  | leaf a => rfl
  | node a ch => rfl

theorem recThreshold_child (lo hi : ℚ) (t : WTree) (s : ℚ) (c : Fin (2 ^ 3)) :
    (recThreshold fl lo hi t s).1.child c = (recThreshold fl lo hi (t.child c) (backward fl ⟨s, WTree.details t⟩ c)).1 := by
  cases t with
  | nil => simp only [recThreshold, child_nil]
  | leaf a => simp only [recThreshold, child_leaf]
  | node a ch => simp only [recThreshold, WTree.details, child_node]

theorem recThreshold_isNil (lo hi : ℚ) (t : WTree) (s : ℚ) : (recThreshold fl lo hi t s).1 = .nil ↔ t = .nil := by
  cases t <;> simp [recThreshold]

theorem recThreshold_depth {h : Nat} {t : WTree} (ht : WTree.DepthLe h t) (lo hi s : ℚ) : WTree.DepthLe h (recThreshold fl lo hi t s).1 := by
  induction h generalizing t s with
  | zero =>
    have ht' : t = .nil := ht
    subst ht'; rfl
  | succ h ih => intro c; rw [recThreshold_child]; exact ih (ht c) _

/-- The error of thresholding. -/
theorem recThreshold_close {lo hi L : ℚ} (hlh : lo ≤ hi) (hL : 0 ≤ L) {n : Nat} {t : WTree} {s : ℚ} (hd : WTree.DepthLe n t) (hf : FloatTree t) (hs : IsFloat s)
    (hlo : |lo| ≤ L - n * (119 * (L * ulp1))) (hhi : |hi| ≤ L - n * (119 * (L * ulp1)))
    (hv : ∀ q : List (Fin (2 ^ 3)), q.length ≤ n → |t.getValue s q| ≤ L - n * (119 * (L * ulp1))) :
    FloatTree (recThreshold fl lo hi t s).1 ∧ (t ≠ .nil → IsFloat (recThreshold fl lo hi t s).2) ∧
      ∀ q : List (Fin (2 ^ 3)), q.length = n →
        |(recThreshold fl lo hi t s).1.getValue (recThreshold fl lo hi t s).2 q - clamp lo hi (t.getValue s q)| ≤ n * (119 * (L * ulp1)) := by
  have hβ : 0 ≤ L * ulp1 := mul_nonneg hL ulp1_pos.le
  have hnil : ∀ (n : Nat) (s : ℚ), FloatTree (recThreshold fl lo hi .nil s).1 ∧ ((.nil : WTree) ≠ .nil → IsFloat (recThreshold fl lo hi .nil s).2) ∧
      ∀ q : List (Fin (2 ^ 3)), q.length = n →
        |(recThreshold fl lo hi .nil s).1.getValue (recThreshold fl lo hi .nil s).2 q - clamp lo hi (WTree.getValue .nil s q)| ≤ n * (119 * (L * ulp1)) := by
    intro n s
    refine ⟨fun q i => ?_, fun h => absurd rfl h, fun q _ => ?_⟩
    · simp only [recThreshold, nil_descend]; exact isFloat_zero
    · simp only [recThreshold, WTree.getValue_nil, sub_self, abs_zero]; positivity
  induction n generalizing t s with
  | zero =>
    have ht : t = .nil := hd
    subst ht
    exact hnil 0 s
  | succ n ih =>
    by_cases ht : t = .nil
    · subst ht; exact hnil (n + 1) s
    push_cast at hlo hhi hv
    set β := L * ulp1 with hβd
    have hnβ : 0 ≤ (n : ℚ) * (119 * β) := by positivity
    have hB : ∀ q : List (Fin (2 ^ 3)), q.length ≤ n + 1 → |t.getValue s q| ≤ L := fun q hq => (hv q hq).trans (by linarith)
    have hsB : |s| ≤ L := by have := hB [] (by simp); rwa [WTree.getValue_nil_path] at this
    have hdet : ∀ i, |WTree.details t i| ≤ detailWeight i * L := by
      intro i
      have := coefficients_bound hL hB [] (by simp) i
      rwa [descend_nil'] at this
    -- the values of the children
    have hbk := backward_close ⟨s, WTree.details t⟩ L hL hs hf.root hsB hdet
    set x := backward fl ⟨s, WTree.details t⟩ with hx
    have hchild : ∀ c (q : List (Fin (2 ^ 3))), |WTree.getValue (t.child c) (x c) q - t.getValue s (c :: q)| ≤ 63 * β := by
      intro c q
      rw [WTree.getValue_cons _ ht]
      have h1 := (hbk c).2
      rw [bwd3_single] at h1
      have h2 : WTree.getValue (t.child c) (x c) q = WTree.getValue (t.child c) (Haar.backwardSingleChild 3 ⟨s, WTree.details t⟩ c) q
          + (x c - Haar.backwardSingleChild 3 ⟨s, WTree.details t⟩ c) := by
        rw [← WTree.getValue_shift]; congr 1; ring
      rw [h2, add_sub_cancel_left]
      exact h1
    have hrec : ∀ c, FloatTree (recThreshold fl lo hi (t.child c) (x c)).1 ∧ _ ∧ _ := fun c =>
      ih (hd c) (hf.child c) (hbk c).1 (by linarith) (by linarith) (fun q hq => by
        have h1 := hchild c q
        have h2 := hv (c :: q) (by simp; omega)
        rw [abs_le] at h1 h2 ⊢
        constructor <;> linarith [h1.1, h1.2, h2.1, h2.2])
    -- the new values of the children
    have hy : ∀ c, |thrVals lo hi t s c| ≤ L := by
      intro c
      have := paths_bound (n := n) (t := (recThreshold fl lo hi (t.child c) (x c)).1) (s := (recThreshold fl lo hi (t.child c) (x c)).2) (A := L) (fun q hq => by
        have h1 := (hrec c).2.2 q hq
        have h0 : |WTree.getValue (t.child c) (x c) q| ≤ L - n * (119 * β) := by
          have h1 := hchild c q
          have h2 := hv (c :: q) (by simp; omega)
          rw [abs_le] at h1 h2 ⊢
          constructor <;> linarith [h1.1, h1.2, h2.1, h2.2]
        have h2 := clamp_abs (lo := lo) (hi := hi) (by linarith : |lo| ≤ L - n * (119 * β)) (by linarith) h0
        rw [abs_le] at h1 h2 ⊢
        constructor <;> linarith [h1.1, h1.2, h2.1, h2.2]) [] (by simp)
      rwa [WTree.getValue_nil_path] at this
    obtain ⟨⟨hfs, hfd⟩, hes, hed⟩ := forward_close (thrVals lo hi t s) L hL hy
    refine ⟨fun q i => ?_, fun _ => ?_, fun q hq => ?_⟩
    · cases q with
      | nil => rw [descend_nil', recThreshold_details _ _ _ ht]; exact hfd i
      | cons c q => rw [descend_cons, recThreshold_child]; exact (hrec c).1 q i
    · rw [recThreshold_scale _ _ _ ht]; exact hfs
    · cases q with
      | nil => simp at hq
      | cons c q =>
        have hq' : q.length = n := by simpa using hq
        rw [WTree.getValue_cons _ (fun e => ht ((recThreshold_isNil lo hi t s).1 e)), recThreshold_scale _ _ _ ht, recThreshold_details _ _ _ ht, recThreshold_child]
        have h1 := bwd_perturb _ _ _ _ (7 * β) (7 * β) hes hed c
        rw [bwd3_fwd] at h1
        have h2 := (hrec c).2.2 q hq'
        have h3 := (clamp_nonexpansive hlh (WTree.getValue (t.child c) (x c) q) (t.getValue s (c :: q))).trans (hchild c q)
        generalize Haar.backwardSingleChild 3 ⟨(forward fl (thrVals lo hi t s)).scale, (forward fl (thrVals lo hi t s)).details⟩ c = y at h1 ⊢
        have h4 : (recThreshold fl lo hi (t.child c) (x c)).1.getValue y q
            = (recThreshold fl lo hi (t.child c) (x c)).1.getValue (thrVals lo hi t s c) q + (y - thrVals lo hi t s c) := by
          rw [← WTree.getValue_shift]; congr 1; ring
        rw [← hx, h4]
        change |(recThreshold fl lo hi (t.child c) (x c)).1.getValue (thrVals lo hi t s c) q - _| ≤ _ at h2
        push_cast
        rw [abs_le] at h1 h2 h3 ⊢
        constructor <;> linarith [h1.1, h1.2, h2.1, h2.2, h3.1, h3.2]

end Rounded

theorem Close.mono {n : Nat} {t tE : WTree} {s sE ε ε' : ℚ} (h : Close n t s tE sE ε) (he : ε ≤ ε') : Close n t s tE sE ε' :=
  ⟨h.ne, h.neE, h.floats, h.scale, fun q hq => (h.values q hq).trans he⟩

theorem Close.threshold {n : Nat} (hn : n ≤ 20) {t tE : WTree} {s sE ε A lo hi : ℚ} (h : Close n t s tE sE ε) (hd : WTree.DepthLe n t) (hdE : WTree.DepthLe n tE)
    (hlh : lo ≤ hi) (hlo : |lo| ≤ A) (hhi : |hi| ≤ A) (hb : ∀ q : List (Fin (2 ^ 3)), q.length ≤ n → |tE.getValue sE q| ≤ A) :
    Close n (Rounded.recThreshold fl lo hi t s).1 (Rounded.recThreshold fl lo hi t s).2 (WTree.recThreshold lo hi tE sE).1 (WTree.recThreshold lo hi tE sE).2
      (ε + 128 * n * (A + ε) * ulp1) := by
  have hε : 0 ≤ ε := (abs_nonneg _).trans (h.values [] (by simp))
  have hA : 0 ≤ A := (abs_nonneg _).trans hlo
  have hn' : (n : ℚ) ≤ 20 := by exact_mod_cast hn
  have hu := ulp1_pos
  have hslack : A + ε ≤ 128 / 119 * (A + ε) - n * (119 * (128 / 119 * (A + ε) * ulp1)) := by
    have h1 : (n : ℚ) * ((A + ε) * ulp1) ≤ 20 * ((A + ε) * (1 / 1000000)) :=
      mul_le_mul hn' (mul_le_mul_of_nonneg_left Rounded.ulp1_le (by linarith)) (by positivity) (by norm_num)
    nlinarith
  have hF : ∀ q : List (Fin (2 ^ 3)), q.length ≤ n → |t.getValue s q| ≤ A + ε := by
    intro q hq
    have h1 := h.values q hq
    have h2 := hb q hq
    rw [abs_le] at h1 h2 ⊢
    constructor <;> linarith [h1.1, h1.2, h2.1, h2.2]
  obtain ⟨hfl, hsc, hv⟩ := Rounded.recThreshold_close (L := 128 / 119 * (A + ε)) hlh (by positivity) hd h.floats h.scale (by linarith) (by linarith)
    (fun q hq => (hF q hq).trans hslack)
  refine ⟨fun e => h.ne ((Rounded.recThreshold_isNil lo hi t s).1 e), fun e => h.neE ((WTree.recThreshold_isNil lo hi tE sE).1 e), hfl, hsc h.ne, ?_⟩
  apply Rounded.paths_close
  intro q hq
  rw [WTree.recThreshold_getValue _ _ _ _ _ (hdE.descend q hq)]
  have h1 := hv q hq
  have h2 := (Rounded.clamp_nonexpansive hlh (t.getValue s q) (tE.getValue sE q)).trans (h.values q (by omega))
  have e : (n : ℚ) * (119 * (128 / 119 * (A + ε) * ulp1)) = 128 * n * (A + ε) * ulp1 := by ring
  rw [e] at h1
  rw [abs_le] at h1 h2 ⊢
  constructor <;> linarith [h1.1, h1.2, h2.1, h2.2]

end Wavemap
