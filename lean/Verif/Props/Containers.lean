import Mathlib.Data.Rat.Floor
import Mathlib.Algebra.Order.Field.Basic
import Mathlib.Tactic.Linarith
import Mathlib.Tactic.Positivity
import Mathlib.Tactic.FieldSimp
import Mathlib.Tactic.NormNum
import Verif.Model.Containers
/-!
# C45, C46: bucket queue and sparse vector
-/
namespace Wavemap

/-! ## C45: bucket queue -/

namespace BucketQueue
variable {κ α : Type} [Field κ] [LinearOrder κ] [IsStrictOrderedRing κ] [FloorRing κ]

/-- Operations on a bucket queue. -/
inductive Op (κ α : Type) where
  | push (key : κ) (value : α)
  | pop
  | front
  | clear
  | setNumBuckets (numBuckets : Nat) (maxKey : κ)

/-- One call on the queue; `none` is undefined behaviour. -/
def step (q : BucketQueue κ α) : Op κ α → Option (BucketQueue κ α)
  | .push k v => q.push k v
  | .pop => q.pop
  | .front => q.front.map Prod.snd
  | .clear => some q.clear
  | .setNumBuckets n k => some (q.setNumBuckets n k)

/-- Specification: a queue is the list of (bucket, value) pairs in the order in which they were pushed; its next
element is the first one among those with the smallest bucket. -/
def isNext (L : List (Int × α)) (e : Int × α) : Bool := L.all fun e' => decide (e.1 ≤ e'.1)

def specFront (L : List (Int × α)) : Option α := (L.find? (isNext L)).map Prod.snd

def specPop (L : List (Int × α)) : List (Int × α) := L.eraseP (isNext L)

/-- Specification state: number of buckets, largest key, queued elements. -/
structure Spec (κ α : Type) where
  n : Nat
  maxKey : κ
  elems : List (Int × α)

def Spec.step (s : Spec κ α) : Op κ α → Spec κ α
  | .push k v => { s with elems := s.elems ++ [(computeBucketIndex s.n s.maxKey k, v)] }
  | .pop => { s with elems := specPop s.elems }
  | .front => s
  | .clear => { s with elems := [] }
  | .setNumBuckets n k => ⟨n, k, []⟩

/-- Preconditions of an operation: at least one bucket, positive largest key; no `front` on an empty queue. -/
def Spec.Ok (s : Spec κ α) : Op κ α → Prop
  | .front => s.elems ≠ []
  | .setNumBuckets n k => 0 < n ∧ 0 < k
  | _ => True

/-- The values of bucket `b`. -/
def inBucket (L : List (Int × α)) (b : Nat) : List α := (L.filter fun e => e.1 = (b : Int)).map Prod.snd

structure Rep (q : BucketQueue κ α) (s : Spec κ α) : Prop where
  n : q.numBuckets = s.n
  k : q.maxKey = s.maxKey
  npos : 0 < s.n
  kpos : 0 < s.maxKey
  range : ∀ e ∈ s.elems, 0 ≤ e.1 ∧ e.1 < s.n
  len : q.buckets.length = s.n
  bucket : ∀ b, b < s.n → q.buckets[b]? = some (inBucket s.elems b)
  last : ∀ b, b < q.last → inBucket s.elems b = []
  size : q.size = s.elems.length

theorem Rep.lowest {q : BucketQueue κ α} {s : Spec κ α} (h : Rep q s) (hne : s.elems ≠ []) :
    ∃ l, q.skipEmpty q.numBuckets q.last = l ∧ l < s.n ∧ inBucket s.elems l ≠ [] ∧
      ∀ b < l, inBucket s.elems b = [] := by
  have key : ∀ fuel l, s.n ≤ l + fuel → (∀ b < l, inBucket s.elems b = []) →
      q.skipEmpty fuel l < s.n ∧ inBucket s.elems (q.skipEmpty fuel l) ≠ [] ∧
        ∀ b < q.skipEmpty fuel l, inBucket s.elems b = [] := by
    intro fuel
    -- some bucket is non-empty
    obtain ⟨e, he⟩ := List.exists_mem_of_ne_nil _ hne
    have hr := h.range e he
    have hb : inBucket s.elems e.1.toNat ≠ [] := by
      unfold inBucket
      intro hnil
      rw [List.map_eq_nil_iff, List.filter_eq_nil_iff] at hnil
      exact hnil e he (by simp; omega)
    have hlt : ∀ l, (∀ b < l, inBucket s.elems b = []) → l < s.n := by
      intro l hl
      by_contra hc
      exact hb (hl _ (by omega))
    induction fuel with
    | zero =>
      intro l hf hl
      have := hlt l hl
      omega
    | succ fuel ih =>
      intro l hf hl
      unfold skipEmpty
      split
      · next hc =>
        refine ih (l + 1) (by omega) fun b hbl => ?_
        rcases Nat.lt_succ_iff_lt_or_eq.1 hbl with hbl | rfl
        · exact hl b hbl
        · have h1 := hc.2
          rw [h.bucket b (by rw [← h.n]; exact hc.1), Option.map_some] at h1
          simpa using h1
      · next hc =>
        have hln := hlt l hl
        refine ⟨hln, fun hemp => hc ⟨by rw [h.n]; exact hln, ?_⟩, hl⟩
        rw [h.bucket l hln, hemp]; rfl
  exact ⟨_, rfl, key _ _ (by rw [h.n]; omega) h.last⟩

theorem next_of_lowest {s : Spec κ α} (l : Nat) (h0 : ∀ e ∈ s.elems, 0 ≤ e.1)
    (h1 : inBucket s.elems l ≠ []) (h2 : ∀ b < l, inBucket s.elems b = []) :
    ∀ e ∈ s.elems, isNext s.elems e = decide (e.1 = l) := by
  have hge : ∀ e ∈ s.elems, (l : Int) ≤ e.1 := by
    intro e he
    by_contra hc
    have := h0 e he
    have h3 := h2 e.1.toNat (by omega)
    unfold inBucket at h3
    rw [List.map_eq_nil_iff, List.filter_eq_nil_iff] at h3
    exact h3 e he (by simp; omega)
  have hex : ∃ e ∈ s.elems, e.1 = l := by
    unfold inBucket at h1
    rw [ne_eq, List.map_eq_nil_iff, List.filter_eq_nil_iff] at h1
    push Not at h1
    obtain ⟨e, he, h⟩ := h1
    exact ⟨e, he, by simpa using h⟩
  intro e he
  unfold isNext
  rw [Bool.eq_iff_iff, List.all_eq_true]
  simp only [decide_eq_true_eq]
  constructor
  · intro h
    obtain ⟨e', he', h'⟩ := hex
    have := h e' he'
    have := hge e he
    omega
  · intro h e' he'
    have := hge e' he'
    omega

theorem specFront_eq {s : Spec κ α} (l : Nat) (v : α) (r : List α) (h0 : ∀ e ∈ s.elems, 0 ≤ e.1)
    (h1 : inBucket s.elems l = v :: r) (h2 : ∀ b < l, inBucket s.elems b = []) :
    specFront s.elems = some v := by
  have hn := next_of_lowest l h0 (by rw [h1]; simp) h2
  unfold specFront
  have : s.elems.find? (isNext s.elems) = s.elems.find? fun e => decide (e.1 = (l : Int)) := by
    have gen : ∀ L : List (Int × α), (∀ e ∈ L, isNext s.elems e = decide (e.1 = (l : Int))) →
        L.find? (isNext s.elems) = L.find? fun e => decide (e.1 = (l : Int)) := by
      intro L hL
      induction L with
      | nil => rfl
      | cons a L ih =>
        rw [List.find?_cons, List.find?_cons, hL a (by simp), ih fun e he => hL e (by simp [he])]
    exact gen _ hn
  rw [this, ← List.head?_filter]
  unfold inBucket at h1
  have := congrArg List.head? h1
  simpa [List.head?_map] using this

theorem inBucket_specPop {s : Spec κ α} (l : Nat) (h0 : ∀ e ∈ s.elems, 0 ≤ e.1)
    (h1 : inBucket s.elems l ≠ []) (h2 : ∀ b < l, inBucket s.elems b = []) (b : Nat) :
    inBucket (specPop s.elems) b = if b = l then (inBucket s.elems l).tail else inBucket s.elems b := by
  have hn := next_of_lowest l h0 h1 h2
  have gen : ∀ L : List (Int × α), (∀ e ∈ L, isNext s.elems e = decide (e.1 = (l : Int))) →
      inBucket (L.eraseP (isNext s.elems)) b
        = if b = l then (inBucket L l).tail else inBucket L b := by
    intro L hL
    induction L with
    | nil => simp [inBucket]
    | cons a L ih =>
      have ih := ih fun e he => hL e (by simp [he])
      by_cases ha : a.1 = (l : Int)
      · rw [List.eraseP_cons_of_pos (by rw [hL a (by simp)]; simpa using ha)]
        by_cases hb : b = l
        · subst hb; simp [inBucket, ha]
        · have : ¬ a.1 = (b : Int) := by omega
          simp [inBucket, this, hb]
      · rw [List.eraseP_cons_of_neg (by rw [hL a (by simp)]; simpa using ha)]
        have e1 : inBucket (a :: L) l = inBucket L l := by simp [inBucket, ha]
        by_cases hb : b = l
        · subst hb
          have e2 : inBucket (a :: L.eraseP (isNext s.elems)) b = inBucket (L.eraseP (isNext s.elems)) b := by
            simp [inBucket, ha]
          rw [if_pos rfl, e1, e2, ih, if_pos rfl]
        · rw [if_neg hb] at ih ⊢
          unfold inBucket at ih ⊢
          by_cases hab : a.1 = (b : Int)
          · simp only [List.filter_cons, hab, decide_true, if_true, List.map_cons, ih]
          · simp only [List.filter_cons, hab, decide_false]
            exact ih
  exact gen _ hn

theorem computeBucketIndex_range (n : Nat) (k key : κ) (hn : 0 < n) (hk : 0 < k) :
    0 ≤ computeBucketIndex n k key ∧ computeBucketIndex n k key < n := by
  unfold computeBucketIndex
  have h1 : (1 : κ) ≤ n := by exact_mod_cast hn
  have h2 : 0 ≤ |key| / k * ((n : κ) - 1) :=
    mul_nonneg (div_nonneg (abs_nonneg _) hk.le) (by linarith)
  have h3 := Int.floor_nonneg.2 h2
  dsimp only
  split <;> omega

theorem inBucket_append (L : List (Int × α)) (e : Int × α) (b : Nat) :
    inBucket (L ++ [e]) b = inBucket L b ++ if e.1 = (b : Int) then [e.2] else [] := by
  unfold inBucket
  by_cases h : e.1 = (b : Int) <;> simp [List.filter_append, h]

theorem Rep.fresh (q : BucketQueue κ α) (n : Nat) (k : κ) (hn : 0 < n) (hk : 0 < k) (h1 : q.numBuckets = n)
    (h2 : q.maxKey = k) (h3 : q.buckets = List.replicate n []) (h4 : q.size = 0) : Rep q ⟨n, k, []⟩ :=
  ⟨h1, h2, hn, hk, by simp, by simp [h3], fun b hb => by simp [h3, inBucket, hb], by simp [inBucket], by simp [h4]⟩

theorem Rep.step {q : BucketQueue κ α} {s : Spec κ α} (h : Rep q s) (op : Op κ α) (hok : s.Ok op) :
    ∃ q', q.step op = some q' ∧ Rep q' (s.step op) := by
  cases op with
  | push k v =>
    obtain ⟨i0, i1⟩ := computeBucketIndex_range s.n s.maxKey k h.npos h.kpos
    unfold BucketQueue.step push
    rw [h.n, h.k]
    dsimp only
    generalize hi : computeBucketIndex s.n s.maxKey k = i at *
    rw [if_pos i0, h.bucket i.toNat (by omega)]
    dsimp only
    refine ⟨_, rfl, ?_⟩
    have hs : s.step (.push k v) = { s with elems := s.elems ++ [(i, v)] } := by
      rw [← hi]; rfl
    rw [hs]
    refine ⟨rfl, rfl, h.npos, h.kpos, fun e he => ?_, by simp [h.len], fun b hb => ?_, fun b hb => ?_, by simp [h.size]⟩
    · rcases List.mem_append.1 he with he | he
      · exact h.range e he
      · rw [List.mem_singleton] at he; subst he; exact ⟨i0, i1⟩
    · rw [List.getElem?_set, inBucket_append]
      by_cases hbi : i.toNat = b
      · have : i = (b : Int) := by omega
        rw [if_pos hbi, if_pos (by rw [h.len]; omega), if_pos this, hbi]
      · have : ¬ i = (b : Int) := by omega
        rw [if_neg hbi, h.bucket b hb, if_neg this, List.append_nil]
    · rw [inBucket_append]
      dsimp only at hb
      have : b < q.last ∧ ¬ i = (b : Int) := by split at hb <;> omega
      rw [h.last b this.1, if_neg this.2]; rfl
  | pop =>
    unfold BucketQueue.step pop
    by_cases hne : s.elems = []
    · have : q.empty = true := by simp [BucketQueue.empty, h.size, hne]
      rw [if_pos this]
      refine ⟨q, rfl, ?_⟩
      have : s.step (.pop : Op κ α) = s := by
        unfold Spec.step specPop; cases s; simp_all
      rw [this]; exact h
    · have : ¬ q.empty = true := by
        simp only [BucketQueue.empty, beq_iff_eq, h.size, List.length_eq_zero_iff]; exact hne
      rw [if_neg this]
      obtain ⟨l, hl, hln, h1, h2⟩ := h.lowest hne
      rw [hl]
      dsimp only
      rw [if_pos (by rw [h.n]; exact hln), h.bucket l hln]
      cases hb : inBucket s.elems l with
      | nil => exact absurd hb h1
      | cons v r =>
        dsimp only
        refine ⟨_, rfl, ?_⟩
        have hpop := inBucket_specPop l (fun e he => (h.range e he).1) h1 h2
        refine ⟨h.n, h.k, h.npos, h.kpos, fun e he => ?_, by simp only [List.length_set]; exact h.len,
          fun b hbn => ?_, fun b hbl => ?_, ?_⟩
        · exact h.range e (List.mem_of_mem_eraseP he)
        · rw [List.getElem?_set]
          show _ = some (inBucket (specPop s.elems) b)
          rw [hpop]
          by_cases hbl : l = b
          · rw [if_pos hbl, if_pos (by rw [h.len]; omega), if_pos hbl.symm, hb]; rfl
          · rw [if_neg hbl, if_neg (Ne.symm hbl), h.bucket b hbn]
        · show inBucket (specPop s.elems) b = []
          dsimp only at hbl
          rw [hpop, if_neg (by omega), h2 b hbl]
        · show q.size - 1 = (specPop s.elems).length
          unfold specPop
          have hn := next_of_lowest l (fun e he => (h.range e he).1) h1 h2
          have hex : ∃ e ∈ s.elems, e.1 = (l : Int) := by
            unfold inBucket at h1
            rw [ne_eq, List.map_eq_nil_iff, List.filter_eq_nil_iff] at h1
            push Not at h1
            obtain ⟨e, he, h⟩ := h1
            exact ⟨e, he, by simpa using h⟩
          obtain ⟨e, he, hel⟩ := hex
          rw [List.length_eraseP_of_mem he (by rw [hn e he]; simpa using hel), h.size]
  | front =>
    unfold BucketQueue.step front
    obtain ⟨l, hl, hln, h1, h2⟩ := h.lowest hok
    rw [hl]
    dsimp only
    rw [h.bucket l hln]
    cases hb : inBucket s.elems l with
    | nil => exact absurd hb h1
    | cons v r =>
      refine ⟨_, rfl, h.n, h.k, h.npos, h.kpos, h.range, h.len, h.bucket, h2, h.size⟩
  | clear =>
    exact ⟨_, rfl, Rep.fresh _ _ _ h.npos h.kpos h.n h.k (by show List.replicate q.numBuckets _ = _; rw [h.n]) rfl⟩
  | setNumBuckets n k => exact ⟨_, rfl, Rep.fresh _ _ _ hok.1 hok.2 rfl rfl rfl rfl⟩

/-- Executing a list of operations. -/
def run (q : BucketQueue κ α) : List (Op κ α) → Option (BucketQueue κ α)
  | [] => some q
  | op :: ops => (q.step op).bind fun q' => q'.run ops

def Spec.run (s : Spec κ α) (ops : List (Op κ α)) : Spec κ α := ops.foldl Spec.step s

/-- All operations of the list meet their preconditions when they are executed. -/
def Spec.AllOk (s : Spec κ α) : List (Op κ α) → Prop
  | [] => True
  | op :: ops => s.Ok op ∧ (s.step op).AllOk ops

theorem Rep.run {q : BucketQueue κ α} {s : Spec κ α} (h : Rep q s) (ops : List (Op κ α)) (hok : s.AllOk ops) :
    ∃ q', q.run ops = some q' ∧ Rep q' (s.run ops) := by
  induction ops generalizing q s with
  | nil => exact ⟨q, rfl, h⟩
  | cons op ops ih =>
    obtain ⟨q1, h1, h2⟩ := h.step op hok.1
    obtain ⟨q2, h3, h4⟩ := ih h2 hok.2
    exact ⟨q2, by simp [BucketQueue.run, h1, h3], h4⟩

end BucketQueue

open BucketQueue

variable {κ : Type} [Field κ] [LinearOrder κ] [IsStrictOrderedRing κ] [FloorRing κ]

/-- **C45** Every history of pushes, pops, peeks, clears and resizes is defined, and afterwards the queue answers like
the specification: the size is the number of queued elements, and peeking returns the earliest pushed element of the
lowest non-empty bucket (which is also the one the next pop removes, by `Spec.step`). -/
theorem C45_refines {α : Type} (n : Nat) (maxKey : κ) (hn : 0 < n) (hk : 0 < maxKey)
    (ops : List (Op κ α)) (hok : (Spec.mk n maxKey []).AllOk ops) :
    ∃ q, (BucketQueue.create n maxKey : BucketQueue κ α).run ops = some q ∧
      q.size = ((Spec.mk n maxKey []).run ops).elems.length ∧
      (q.empty = true ↔ ((Spec.mk n maxKey []).run ops).elems = []) ∧
      q.front.map Prod.fst = specFront ((Spec.mk n maxKey []).run ops).elems := by
  obtain ⟨q, h1, h2⟩ := (Rep.fresh (BucketQueue.create n maxKey : BucketQueue κ α) n maxKey hn hk rfl rfl rfl rfl).run
    ops hok
  refine ⟨q, h1, h2.size, by simp [BucketQueue.empty, h2.size], ?_⟩
  generalize ((Spec.mk n maxKey []).run ops) = s at *
  by_cases hne : s.elems = []
  · have hf : specFront s.elems = none := by simp [specFront, hne]
    rw [hf]
    unfold front
    dsimp only
    cases hb : q.buckets[q.skipEmpty q.numBuckets q.last]? with
    | none => rfl
    | some b =>
      have hlt : q.skipEmpty q.numBuckets q.last < s.n := by
        rw [← h2.len]; exact (List.getElem?_eq_some_iff.1 hb).1
      rw [h2.bucket _ hlt] at hb
      simp [inBucket, hne] at hb
      subst hb; rfl
  · obtain ⟨l, hl, hln, h3, h4⟩ := h2.lowest hne
    unfold front
    dsimp only
    rw [hl, h2.bucket l hln]
    cases hb : inBucket s.elems l with
    | nil => exact absurd hb h3
    | cons v r =>
      rw [specFront_eq l v r (fun e he => (h2.range e he).1) hb h4]; rfl

/-- **C45** Buckets respect the keys: a smaller key never goes to a higher bucket. -/
theorem C45_bucket_monotone (n : Nat) (maxKey : κ) (hn : 0 < n) (hk : 0 < maxKey) (k1 k2 : κ) (h : |k1| ≤ |k2|) :
    computeBucketIndex n maxKey k1 ≤ computeBucketIndex n maxKey k2 := by
  unfold computeBucketIndex
  have h1 : (1 : κ) ≤ n := by exact_mod_cast hn
  have h2 : ⌊|k1| / maxKey * ((n : κ) - 1)⌋ ≤ ⌊|k2| / maxKey * ((n : κ) - 1)⌋ := by
    apply Int.floor_le_floor
    apply mul_le_mul_of_nonneg_right _ (by linarith)
    exact div_le_div_of_nonneg_right h hk.le
  dsimp only
  split <;> split <;> omega

/-- **C45** The order in which elements leave the queue deviates from the order of their keys by less than one bucket
width: the key of an element of the lowest bucket exceeds any other queued key by less than `max_key / (n - 1)`, as
long as it does not exceed `max_key`. -/
theorem C45_order_error (n : Nat) (maxKey : κ) (hn : 1 < n) (hk : 0 < maxKey) (k1 k2 : κ)
    (h : computeBucketIndex n maxKey k1 ≤ computeBucketIndex n maxKey k2) (h1 : |k1| ≤ maxKey) :
    |k1| < |k2| + maxKey / (n - 1) := by
  have hn' : (0 : κ) < (n : κ) - 1 := by
    have : (1 : κ) < n := by exact_mod_cast hn
    linarith
  have e1 : |k1| / maxKey * ((n : κ) - 1) ≤ (n : κ) - 1 := by
    have : |k1| / maxKey ≤ 1 := (div_le_one hk).2 h1
    nlinarith
  have f1 : ⌊|k1| / maxKey * ((n : κ) - 1)⌋ < (n : Int) := by
    rw [Int.floor_lt]
    have : ((n : Int) : κ) = n := by norm_cast
    rw [this]; linarith
  have f2 : ⌊|k1| / maxKey * ((n : κ) - 1)⌋ ≤ ⌊|k2| / maxKey * ((n : κ) - 1)⌋ := by
    unfold computeBucketIndex at h
    dsimp only at h
    rw [if_neg (by omega)] at h
    split at h <;> omega
  have g1 : |k1| / maxKey * ((n : κ) - 1) < |k2| / maxKey * ((n : κ) - 1) + 1 := by
    have a1 := Int.lt_floor_add_one (|k1| / maxKey * ((n : κ) - 1))
    have a2 := Int.floor_le (|k2| / maxKey * ((n : κ) - 1))
    have a3 : ((⌊|k1| / maxKey * ((n : κ) - 1)⌋ : Int) : κ) ≤ ((⌊|k2| / maxKey * ((n : κ) - 1)⌋ : Int) : κ) := by
      exact_mod_cast f2
    linarith
  have g2 : |k1| = (|k1| / maxKey * ((n : κ) - 1)) * (maxKey / ((n : κ) - 1)) := by field_simp
  have g3 : |k2| = (|k2| / maxKey * ((n : κ) - 1)) * (maxKey / ((n : κ) - 1)) := by field_simp
  have g4 : 0 < maxKey / ((n : κ) - 1) := div_pos hk hn'
  rw [g2, g3]
  nlinarith

/-- Non-vacuity of `C45_refines`: out-of-order pushes, a pop, a resize of a used queue. -/
example : ∃ ops : List (Op ℚ Nat), ops.length = 6 ∧ (Spec.mk (4 : ℕ) (3 : ℚ) ([] : List (Int × Nat))).AllOk ops ∧
    specFront ((Spec.mk (4 : ℕ) (3 : ℚ) ([] : List (Int × Nat))).run ops).elems = some 30 := by
  refine ⟨[.push 2 10, .push 1 20, .push 1 30, .front, .pop, .front], rfl, ?_, by decide +kernel⟩
  refine ⟨trivial, trivial, trivial, ?_, trivial, ?_, trivial⟩ <;> (show _ ≠ []; decide +kernel)

/-! ## C46: sparse vector -/

namespace SparseVector
variable {w : Nat} {α : Type}

/-- Specification: writes as a function from indices to stored values. -/
def table (ops : List (Nat × α)) : Nat → Option α :=
  ops.foldl (fun f e i => if i = e.1 then some e.2 else f i) fun _ => none

/-- Executing writes in order. -/
def run (v : SparseVector w α) : List (Nat × α) → Option (SparseVector w α)
  | [] => some v
  | e :: ops => (v.write e.1 e.2).bind fun v' => v'.run ops

structure Rep (v : SparseVector w α) (f : Nat → Option α) : Prop where
  mask : ∀ i, i < w → v.bitmask.getLsbD i = (f i).isSome
  vec : v.compacted = (List.range w).filterMap f

theorem lowmask (b : BitVec w) (idx i : Nat) (hi : i < w) :
    (~~~(BitVec.allOnes w <<< idx) &&& b).getLsbD i = (decide (i < idx) && b.getLsbD i) := by
  simp only [BitVec.getLsbD_and, BitVec.getLsbD_not, BitVec.getLsbD_shiftLeft, BitVec.getLsbD_allOnes, hi]
  by_cases h : i < idx <;> simp [h]
  intro; omega

theorem length_filterMap_isSome (f : Nat → Option α) (l : List Nat) :
    (l.filterMap f).length = (l.filter fun i => (f i).isSome).length := by
  induction l with
  | nil => rfl
  | cons a l ih => cases h : f a <;> simp [h, ih]

theorem Rep.sparseIdx {v : SparseVector w α} {f} (h : Rep v f) (idx : Nat) (hi : idx < w) :
    v.sparseIdx idx = ((List.range idx).filterMap f).length := by
  unfold SparseVector.sparseIdx count
  rw [length_filterMap_isSome]
  have hr : List.range w = List.range idx ++ (List.range (w - idx)).map (idx + ·) := by
    rw [← List.range_add]; congr 1; omega
  rw [hr, List.filter_append]
  have h2 : ((List.range (w - idx)).map (idx + ·)).filter
      (fun i => (~~~(BitVec.allOnes w <<< idx) &&& v.bitmask).getLsbD i) = [] := by
    rw [List.filter_eq_nil_iff]
    intro i him
    rw [List.mem_map] at him
    obtain ⟨j, hj, rfl⟩ := him
    rw [List.mem_range] at hj
    rw [lowmask _ _ _ (by omega)]
    simp
  rw [h2, List.append_nil]
  congr 1
  apply List.filter_congr
  intro i him
  rw [List.mem_range] at him
  rw [lowmask _ _ _ (by omega), h.mask i (by omega)]
  simp [him]

theorem split_range (f : Nat → Option α) (idx : Nat) (hi : idx < w) :
    (List.range w).filterMap f = (List.range idx).filterMap f ++ (f idx).toList ++
      ((List.range (w - idx - 1)).map (idx + 1 + ·)).filterMap f := by
  have hr : List.range w = List.range (idx + 1) ++ (List.range (w - idx - 1)).map (idx + 1 + ·) := by
    rw [← List.range_add]; congr 1; omega
  rw [hr, List.filterMap_append, List.range_succ, List.filterMap_append]
  cases h : f idx <;> simp [h]

theorem Rep.at_eq {v : SparseVector w α} {f} (h : Rep v f) (dflt : α) (idx : Nat) (hi : idx < w) :
    v.at dflt idx = some ((f idx).getD dflt) := by
  unfold SparseVector.at SparseVector.has
  rw [h.mask idx hi]
  cases hf : f idx with
  | none => simp
  | some a =>
    simp only [Option.isSome_some, if_true, Option.getD_some]
    rw [h.sparseIdx idx hi, h.vec, split_range f idx hi, hf]
    simp

theorem Rep.write {v : SparseVector w α} {f} (h : Rep v f) (idx : Nat) (hi : idx < w) (a : α) :
    ∃ v', v.write idx a = some v' ∧ Rep v' fun i => if i = idx then some a else f i := by
  have hlow : ∀ g : Nat → Option α, (∀ i, i ≠ idx → g i = f i) →
      (List.range idx).filterMap g = (List.range idx).filterMap f ∧
      ((List.range (w - idx - 1)).map (idx + 1 + ·)).filterMap g
        = ((List.range (w - idx - 1)).map (idx + 1 + ·)).filterMap f := by
    intro g hg
    constructor
    · apply List.filterMap_congr
      intro i him
      rw [List.mem_range] at him
      exact hg i (by omega)
    · apply List.filterMap_congr
      intro i him
      rw [List.mem_map] at him
      obtain ⟨j, _, rfl⟩ := him
      exact hg _ (by omega)
  obtain ⟨l1, l2⟩ := hlow (fun i => if i = idx then some a else f i) fun i hne => if_neg hne
  unfold SparseVector.write
  dsimp only
  have hk := h.sparseIdx idx hi
  have hv := h.vec
  rw [split_range f idx hi] at hv
  by_cases hh : v.has idx = true
  · rw [if_pos hh]
    have hsome : (f idx).isSome = true := by rw [← h.mask idx hi]; exact hh
    obtain ⟨b, hb⟩ := Option.isSome_iff_exists.1 hsome
    rw [hb] at hv
    have hlt : v.sparseIdx idx < v.compacted.length := by
      rw [hk, hv]; simp
    rw [if_pos hlt]
    refine ⟨_, rfl, fun i hiw => ?_, ?_⟩
    · by_cases hii : i = idx
      · subst hii; simpa [SparseVector.has] using hh
      · simp only [if_neg hii]; exact h.mask i hiw
    · rw [split_range _ idx hi, l1, l2]
      dsimp only
      rw [hk, hv]
      simp
  · rw [if_neg hh]
    have hnone : f idx = none := by
      have : (f idx).isSome = false := by rw [← h.mask idx hi]; simpa [SparseVector.has] using hh
      simpa using this
    rw [hnone] at hv
    have hle : v.sparseIdx idx ≤ v.compacted.length := by rw [hk, hv]; simp
    rw [if_pos hle]
    refine ⟨_, rfl, fun i hiw => ?_, ?_⟩
    · simp only [BitVec.getLsbD_or, BitVec.getLsbD_twoPow]
      by_cases hii : i = idx
      · subst hii; simp [hi]
      · rw [h.mask i hiw]; simp [hii, Ne.symm hii]
    · rw [split_range _ idx hi, l1, l2]
      dsimp only
      rw [hk, hv]
      simp

theorem Rep.run {v : SparseVector w α} {f} (h : Rep v f) (ops : List (Nat × α)) (hok : ∀ e ∈ ops, e.1 < w) :
    ∃ v', v.run ops = some v' ∧
      Rep v' (ops.foldl (fun f e i => if i = e.1 then some e.2 else f i) f) := by
  induction ops generalizing v f with
  | nil => exact ⟨v, rfl, h⟩
  | cons e ops ih =>
    obtain ⟨v1, h1, h2⟩ := h.write e.1 (hok e (by simp)) e.2
    obtain ⟨v2, h3, h4⟩ := ih h2 fun e' he' => hok e' (by simp [he'])
    exact ⟨v2, by simp [SparseVector.run, h1, h3], h4⟩

theorem Rep.create : Rep (create : SparseVector w α) fun _ => none := by
  refine ⟨fun i _ => by simp [SparseVector.create], ?_⟩
  simp only [SparseVector.create]
  induction List.range w with
  | nil => rfl
  | cons a l ih => simpa using ih

end SparseVector

/-- **C46** After any writes, `at` returns the value last written to the index, or the default value if none was;
no access leaves the compacted storage; `has` and `size` report exactly the written indices. -/
theorem C46_sparse_vector {w : Nat} {α : Type} (dflt : α) (ops : List (Nat × α)) (hok : ∀ e ∈ ops, e.1 < w) :
    ∃ v, (SparseVector.create : SparseVector w α).run ops = some v ∧
      (∀ i < w, v.at dflt i = some ((SparseVector.table ops i).getD dflt)) ∧
      (∀ i < w, v.has i = (SparseVector.table ops i).isSome) ∧
      v.size = ((List.range w).filter fun i => (SparseVector.table ops i).isSome).length := by
  obtain ⟨v, h1, h2⟩ := SparseVector.Rep.create.run ops hok
  refine ⟨v, h1, fun i hi => h2.at_eq dflt i hi, fun i hi => h2.mask i hi, ?_⟩
  unfold SparseVector.size SparseVector.count
  congr 1
  apply List.filter_congr
  intro i hi
  exact h2.mask i (List.mem_range.1 hi)

/-- Non-vacuity: writes in decreasing order with an overwrite. -/
example : ((SparseVector.create : SparseVector 8 Nat).run [(5, 50), (2, 20), (7, 70), (5, 51)]).bind
    (fun v => v.at 0 5) = some 51 ∧
    ((SparseVector.create : SparseVector 8 Nat).run [(5, 50), (2, 20), (7, 70), (5, 51)]).bind
    (fun v => v.at 0 3) = some 0 := by decide

/-- Two keys in one bucket, popped in the wrong order: less than a bucket apart. -/
example : computeBucketIndex 11 (10 : ℚ) (5 / 2) ≤ computeBucketIndex 11 (10 : ℚ) (9 / 4) ∧ |(5 / 2 : ℚ)| ≤ 10 ∧
    |(5 / 2 : ℚ)| < |(9 / 4 : ℚ)| + 10 / ((11 : Nat) - 1) := by
  have h : computeBucketIndex 11 (10 : ℚ) (5 / 2) ≤ computeBucketIndex 11 (10 : ℚ) (9 / 4) := by decide +kernel
  exact ⟨h, by decide +kernel, C45_order_error 11 10 (by norm_num) (by norm_num) _ _ h (by decide +kernel)⟩

end Wavemap
