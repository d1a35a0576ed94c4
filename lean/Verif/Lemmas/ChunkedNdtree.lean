import Verif.Model.ChunkedNdtree
import Verif.Lemmas.Ndtree
import Verif.Props.LinearIndex
import Mathlib.Data.List.Induction
/-! # Helper lemmas about chunked trees: addresses, and the effect of each operation on each node -/
namespace Wavemap

theorem childDist_eq (d : Nat) (r : ChunkNode) (i : Fin (2 ^ d)) : r.childDist d i = r.dist * 2 ^ d + i.val := by
  rw [ChunkNode.childDist, ← Nat.shiftLeft_add_eq_or_of_lt i.isLt, Nat.shiftLeft_eq]

theorem childDist_div (d : Nat) (r : ChunkNode) (i : Fin (2 ^ d)) : r.childDist d i / 2 ^ d = r.dist := by
  rw [childDist_eq, Nat.mul_comm, Nat.mul_add_div (Nat.two_pow_pos d), Nat.div_eq_of_lt i.isLt, Nat.add_zero]

theorem childDist_mod (d : Nat) (r : ChunkNode) (i : Fin (2 ^ d)) : r.childDist d i % 2 ^ d = i.val := by
  rw [childDist_eq, Nat.mul_comm, Nat.mul_add_mod, Nat.mod_eq_of_lt i.isLt]

theorem childDist_inj {d : Nat} {r r' : ChunkNode} {i i' : Fin (2 ^ d)} (h : r.childDist d i = r'.childDist d i') :
    r.dist = r'.dist ∧ i = i' :=
  ⟨by rw [← childDist_div d r i, h, childDist_div], Fin.ext (by rw [← childDist_mod d r i, h, childDist_mod])⟩

namespace ChunkNode

/-- The node that `getOrAllocateChild` returns. -/
def child (d c : Nat) (r : ChunkNode) (i : Fin (2 ^ d)) : ChunkNode :=
  if r.depth + 1 = c then ⟨r.chunk ++ [r.childDist d i], 0, 0⟩ else ⟨r.chunk, r.depth + 1, r.childDist d i⟩

/-- The address of the node at the end of a path from the root. -/
def ofPath (d c : Nat) (p : List (Fin (2 ^ d))) : ChunkNode := p.foldl (child d c) root

/-- Addresses of nodes of a chunk. -/
def Ok (d c : Nat) (r : ChunkNode) : Prop := r.depth < c ∧ r.dist < 2 ^ (d * r.depth)

variable {d c : Nat}

theorem ofPath_nil : ofPath d c [] = root := rfl

theorem ofPath_snoc (p : List (Fin (2 ^ d))) (i : Fin (2 ^ d)) : ofPath d c (p ++ [i]) = child d c (ofPath d c p) i := by
  simp [ofPath]

theorem child_ok (r : ChunkNode) (h : r.Ok d c) (i : Fin (2 ^ d)) : (child d c r i).Ok d c := by
  obtain ⟨h1, h2⟩ := h
  unfold child
  split
  · exact ⟨by simp only; omega, by simp⟩
  · refine ⟨by simp only; omega, ?_⟩
    simp only [childDist_eq]
    have h3 := i.isLt
    rw [Nat.mul_add, Nat.mul_one, Nat.pow_add]
    calc r.dist * 2 ^ d + i.val < r.dist * 2 ^ d + 1 * 2 ^ d := by omega
      _ = (r.dist + 1) * 2 ^ d := by rw [Nat.add_mul]
      _ ≤ 2 ^ (d * r.depth) * 2 ^ d := Nat.mul_le_mul_right _ h2

theorem ofPath_ok (hc : 0 < c) (p : List (Fin (2 ^ d))) : (ofPath d c p).Ok d c := by
  induction p using List.reverseRecOn with
  | nil => exact ⟨hc, by simp [ofPath, root]⟩
  | append_singleton p i ih => rw [ofPath_snoc]; exact child_ok _ ih i

theorem child_inj {r r' : ChunkNode} {i i' : Fin (2 ^ d)} (h : child d c r i = child d c r' i') : r = r' ∧ i = i' := by
  obtain ⟨k, e, m⟩ := r
  obtain ⟨k', e', m'⟩ := r'
  unfold child at h
  split at h <;> split at h
  · rename_i h1 h2
    simp only [ChunkNode.mk.injEq, and_true, List.append_singleton_inj] at h
    obtain ⟨h3, h4⟩ := h
    have := childDist_inj h4
    simp only at h1 h2 this
    refine ⟨?_, this.2⟩
    rw [ChunkNode.mk.injEq]; exact ⟨h3, by omega, this.1⟩
  · simp only [ChunkNode.mk.injEq] at h; omega
  · simp only [ChunkNode.mk.injEq] at h; omega
  · simp only [ChunkNode.mk.injEq] at h
    obtain ⟨h3, h4, h5⟩ := h
    have := childDist_inj h5
    simp only at this
    refine ⟨?_, this.2⟩
    rw [ChunkNode.mk.injEq]; exact ⟨h3, by omega, this.1⟩

theorem child_ne_root (r : ChunkNode) (i : Fin (2 ^ d)) : child d c r i ≠ root := by
  unfold child root
  split
  · simp
  · simp

theorem ofPath_inj {p q : List (Fin (2 ^ d))} (h : ofPath d c p = ofPath d c q) : p = q := by
  induction p using List.reverseRecOn generalizing q with
  | nil =>
    cases q using List.reverseRecOn with
    | nil => rfl
    | append_singleton q j => rw [ofPath_snoc] at h; exact absurd h.symm (child_ne_root _ _)
  | append_singleton p i ih =>
    cases q using List.reverseRecOn with
    | nil => rw [ofPath_snoc] at h; exact absurd h (child_ne_root _ _)
    | append_singleton q j =>
      rw [ofPath_snoc, ofPath_snoc] at h
      obtain ⟨h1, h2⟩ := child_inj h
      rw [ih h1, h2]

theorem index_eq (hd : 0 < d) (hc : c ≤ 64 / d - 1) {r : ChunkNode} (h : r.Ok d c) :
    r.index d = perfectTreeNodes d r.depth + r.dist := by
  rw [index, C09_total_nodes_fast d r.depth hd (by have := h.1; omega)]

theorem perfectTreeNodes_mono (d : Nat) {a b : Nat} (h : a < b) :
    perfectTreeNodes d a + (2 ^ d) ^ a ≤ perfectTreeNodes d b := by
  obtain ⟨k, rfl⟩ := Nat.exists_eq_add_of_lt h
  induction k with
  | zero => rw [Nat.add_zero, perfectTreeNodes_succ]
  | succ k ih => rw [← Nat.add_assoc, perfectTreeNodes_succ]; have := ih (by omega); omega

theorem index_inj (hd : 0 < d) (hc : c ≤ 64 / d - 1) {r r' : ChunkNode} (h : r.Ok d c) (h' : r'.Ok d c)
    (hk : r.chunk = r'.chunk) (hi : r.index d = r'.index d) : r = r' := by
  rw [index_eq hd hc h, index_eq hd hc h'] at hi
  obtain ⟨k, e, m⟩ := r
  obtain ⟨k', e', m'⟩ := r'
  obtain ⟨h1, h2⟩ := h
  obtain ⟨h3, h4⟩ := h'
  simp only at hk hi h1 h2 h3 h4
  rw [Nat.pow_mul] at h2 h4
  rcases Nat.lt_trichotomy e e' with h5 | h5 | h5
  · have := perfectTreeNodes_mono d h5; omega
  · subst h5; rw [ChunkNode.mk.injEq]; exact ⟨hk, rfl, by omega⟩
  · have := perfectTreeNodes_mono d h5; omega

/-- Every node lies in the chunk of one of its ancestors that is the chunk's root. -/
theorem chunk_root (p : List (Fin (2 ^ d))) :
    ∃ q, q <+: p ∧ (ofPath d c q).depth = 0 ∧ (ofPath d c q).chunk = (ofPath d c p).chunk := by
  induction p using List.reverseRecOn with
  | nil => exact ⟨[], List.nil_prefix, rfl, rfl⟩
  | append_singleton p i ih =>
    obtain ⟨q, h1, h2, h3⟩ := ih
    by_cases h : (ofPath d c p).depth + 1 = c
    · refine ⟨p ++ [i], List.prefix_rfl, ?_, rfl⟩
      rw [ofPath_snoc, child, if_pos h]
    · refine ⟨q, h1.trans (List.prefix_append _ _), h2, ?_⟩
      rw [h3, ofPath_snoc, child, if_neg h]

theorem ofPath_depth (hc : 0 < c) (p : List (Fin (2 ^ d))) : (ofPath d c p).depth = p.length % c := by
  induction p using List.reverseRecOn with
  | nil => simp [ofPath, root]
  | append_singleton p i ih =>
    have hlt : p.length % c < c := Nat.mod_lt _ hc
    rw [ofPath_snoc, child, List.length_append, List.length_singleton, Nat.add_mod]
    split
    · rename_i h
      rw [ih] at h
      rcases Nat.lt_or_ge 1 c with h1 | h1
      · rw [Nat.mod_eq_of_lt h1, h, Nat.mod_self]
      · have : c = 1 := by omega
        subst this; simp [Nat.mod_one]
    · rename_i h
      rw [ih] at h
      have h1 : 1 < c := by omega
      rw [Nat.mod_eq_of_lt h1, Nat.mod_eq_of_lt (by omega), ih]

end ChunkNode

open ChunkNode (root ofPath ofPath_nil ofPath_snoc ofPath_ok ofPath_inj)

/-! ## Which addresses `eraseChild` clears -/

/-- The addresses below child `start` (level distance) of a node at depth `e` of chunk `k`. -/
def Below (d c : Nat) (k : List Nat) (e start : Nat) (r : ChunkNode) : Prop :=
  (r.chunk = k ∧ e + 1 ≤ r.depth ∧ r.dist / 2 ^ (d * (r.depth - (e + 1))) = start) ∨
  (r.chunk.take k.length = k ∧ ∃ m, r.chunk[k.length]? = some m ∧ m / 2 ^ (d * (c - (e + 1))) = start)

theorem div_shift (d m e start : Nat) (h : e + 1 ≤ m) (a : Nat) :
    a / 2 ^ (d * (m + 1 - (e + 1))) = start ↔ (a / 2 ^ d) / 2 ^ (d * (m - (e + 1))) = start := by
  rw [Nat.div_div_eq_div_mul, ← Nat.pow_add]
  have : d * (m + 1 - (e + 1)) = d + d * (m - (e + 1)) := by
    rw [show m + 1 - (e + 1) = (m - (e + 1)) + 1 by omega, Nat.mul_add]; omega
  rw [this]

theorem below_child {d c : Nat} {r ρ : ChunkNode} (hr : r.Ok d c) (hρ : ρ.Ok d c) (i j : Fin (2 ^ d)) :
    Below d c r.chunk r.depth (r.childDist d i) (ChunkNode.child d c ρ j) ↔
      Below d c r.chunk r.depth (r.childDist d i) ρ ∨ (ρ = r ∧ j = i) := by
  obtain ⟨hr1, hr2⟩ := hr
  obtain ⟨hρ1, hρ2⟩ := hρ
  by_cases hb : ρ.depth + 1 = c
  · -- the child is the root of a new chunk
    have e : ChunkNode.child d c ρ j = ⟨ρ.chunk ++ [ρ.childDist d j], 0, 0⟩ := by rw [ChunkNode.child, if_pos hb]
    rw [e]
    constructor
    · rintro (⟨_, h2, _⟩ | ⟨h1, m, h2, h3⟩)
      · simp at h2
      · simp only at h1 h2
        by_cases hl : r.chunk.length < ρ.chunk.length
        · left; right
          rw [List.take_append_of_le_length (by omega)] at h1
          rw [List.getElem?_append_left hl] at h2
          exact ⟨h1, m, h2, h3⟩
        · have hlen : ρ.chunk.length = r.chunk.length := by
            by_contra hne
            rw [List.getElem?_append_right (by omega)] at h2
            rw [List.getElem?_eq_none (by simp; omega)] at h2
            exact absurd h2 (by simp)
          have hk : ρ.chunk = r.chunk := by
            rw [← hlen, List.take_append_of_le_length (Nat.le_refl _), List.take_length] at h1; exact h1
          rw [hk, List.getElem?_append_right (Nat.le_refl _), Nat.sub_self] at h2
          simp only [List.getElem?_cons_zero, Option.some.injEq] at h2
          subst h2
          by_cases he : r.depth + 1 = c
          · right
            have : c - (r.depth + 1) = 0 := by omega
            rw [this, Nat.mul_zero, Nat.pow_zero, Nat.div_one] at h3
            have h4 := childDist_inj h3
            refine ⟨?_, h4.2⟩
            obtain ⟨k, e, m⟩ := r
            obtain ⟨k', e', m'⟩ := ρ
            simp only at hk hb he h4
            rw [ChunkNode.mk.injEq]; exact ⟨hk, by omega, h4.1⟩
          · left; left
            refine ⟨hk, by omega, ?_⟩
            rw [← hb] at h3
            rw [div_shift d _ _ _ (by omega), childDist_div] at h3
            exact h3
    · rintro ((⟨h1, h2, h3⟩ | ⟨h1, m, h2, h3⟩) | ⟨h1, h2⟩)
      · right
        refine ⟨by simp only; rw [h1]; simp, ρ.childDist d j, by simp only; rw [h1]; simp, ?_⟩
        rw [← hb, div_shift d _ _ _ h2, childDist_div]; exact h3
      · right
        have hl : r.chunk.length < ρ.chunk.length := by
          by_contra hn
          rw [List.getElem?_eq_none (by omega)] at h2
          exact absurd h2 (by simp)
        refine ⟨?_, m, ?_, h3⟩
        · simp only; rw [List.take_append_of_le_length (by omega)]; exact h1
        · simp only; rw [List.getElem?_append_left hl]; exact h2
      · subst h1; subst h2
        right
        refine ⟨by simp, ρ.childDist d j, by simp, ?_⟩
        rw [← hb]; simp
  · have e : ChunkNode.child d c ρ j = ⟨ρ.chunk, ρ.depth + 1, ρ.childDist d j⟩ := by rw [ChunkNode.child, if_neg hb]
    rw [e]
    constructor
    · rintro (⟨h1, h2, h3⟩ | ⟨h1, m, h2, h3⟩)
      · simp only at h1 h2 h3
        by_cases he : ρ.depth = r.depth
        · right
          rw [he, Nat.sub_self, Nat.mul_zero, Nat.pow_zero, Nat.div_one] at h3
          have h4 := childDist_inj h3
          refine ⟨?_, h4.2⟩
          obtain ⟨k, e, m⟩ := r
          obtain ⟨k', e', m'⟩ := ρ
          simp only at h1 he h4
          rw [ChunkNode.mk.injEq]; exact ⟨h1, he, h4.1⟩
        · left; left
          refine ⟨h1, by omega, ?_⟩
          rw [div_shift d _ _ _ (by omega), childDist_div] at h3
          exact h3
      · left; right; exact ⟨h1, m, h2, h3⟩
    · rintro ((⟨h1, h2, h3⟩ | ⟨h1, m, h2, h3⟩) | ⟨h1, h2⟩)
      · left
        refine ⟨h1, by simp only; omega, ?_⟩
        simp only
        rw [div_shift d _ _ _ h2, childDist_div]; exact h3
      · right; exact ⟨h1, m, h2, h3⟩
      · subst h1; subst h2
        left
        refine ⟨rfl, Nat.le_refl _, ?_⟩
        simp only [Nat.sub_self, Nat.mul_zero, Nat.pow_zero, Nat.div_one]

theorem not_below_root {d c : Nat} (r : ChunkNode) (start : Nat) : ¬ Below d c r.chunk r.depth start root := by
  rintro (⟨_, h2, _⟩ | ⟨h1, m, h2, _⟩)
  · simp [root] at h2
  · simp [root] at h2

theorem below_iff {d c : Nat} (hc : 0 < c) (p q : List (Fin (2 ^ d))) (i : Fin (2 ^ d)) :
    Below d c (ofPath d c p).chunk (ofPath d c p).depth ((ofPath d c p).childDist d i) (ofPath d c q)
      ↔ p ++ [i] <+: q := by
  induction q using List.reverseRecOn with
  | nil =>
    rw [ofPath_nil]
    constructor
    · intro h; exact absurd h (not_below_root _ _)
    · intro h; simp at h
  | append_singleton q j ih =>
    rw [ofPath_snoc, below_child (ofPath_ok hc p) (ofPath_ok hc q), ih]
    constructor
    · rintro (h | ⟨h1, h2⟩)
      · exact h.trans (List.prefix_append _ _)
      · rw [ofPath_inj h1, h2]; exact List.prefix_rfl
    · intro h
      rcases List.prefix_concat_iff.mp h with h | h
      · right
        have := List.append_inj' h rfl
        exact ⟨by rw [this.1], (List.singleton_inj.mp this.2).symm⟩
      · left; exact h

/-! ## Effect of the operations on each address -/

namespace Chunks
variable {α : Type} {d c : Nat}

/-- Payload and flag at an address. -/
def slot (zero : α) (d : Nat) (s : Chunks α) (r : ChunkNode) : α × Bool :=
  match s r.chunk with
  | none => (zero, false)
  | some k => (k.data (r.index d), k.bit (r.index d))

theorem data_slot (zero : α) (s : Chunks α) (r : ChunkNode) : s.data zero d r = (s.slot zero d r).1 := by
  unfold data slot; split <;> rename_i h <;> simp [h]

theorem bit_slot (zero : α) (s : Chunks α) (r : ChunkNode) : s.hasAtLeastOneChild d r = (s.slot zero d r).2 := by
  unfold hasAtLeastOneChild slot; split <;> rename_i h <;> simp [h]

/-- Whether the chunk of an address is allocated. -/
def live (s : Chunks α) (r : ChunkNode) : Bool := (s r.chunk).isSome

theorem setData_live (s : Chunks α) (r r' : ChunkNode) (a : α) : (s.setData d r a).live r' = s.live r' := by
  unfold live setData modifyChunk; split <;> simp

theorem setBit_live (s : Chunks α) (r r' : ChunkNode) (b : Bool) :
    (s.setHasAtLeastOneChild d r b).live r' = s.live r' := by
  unfold live setHasAtLeastOneChild modifyChunk; split <;> simp

theorem setData_slot (hd : 0 < d) (hc : c ≤ 64 / d - 1) (zero : α) (s : Chunks α) {r r' : ChunkNode}
    (h : r.Ok d c) (h' : r'.Ok d c) (a : α) :
    (s.setData d r a).slot zero d r'
      = if r' = r ∧ s.live r = true then (a, (s.slot zero d r').2) else s.slot zero d r' := by
  unfold slot setData modifyChunk live
  by_cases hk : r'.chunk = r.chunk
  · simp only [hk, if_true]
    cases hs : s r.chunk with
    | none => simp
    | some k =>
      simp only [Option.map_some, Option.isSome_some, and_true]
      by_cases hi : r'.index d = r.index d
      · rw [if_pos (ChunkNode.index_inj hd hc h' h hk hi)]; simp [hi]
      · have hne : r' ≠ r := fun e => hi (by rw [e])
        simp [hi, hne]
  · simp only [hk, if_false]
    rw [if_neg (fun e => hk (by rw [e.1]))]

theorem setBit_slot (hd : 0 < d) (hc : c ≤ 64 / d - 1) (zero : α) (s : Chunks α) {r r' : ChunkNode}
    (h : r.Ok d c) (h' : r'.Ok d c) (b : Bool) :
    (s.setHasAtLeastOneChild d r b).slot zero d r'
      = if r' = r ∧ s.live r = true then ((s.slot zero d r').1, b) else s.slot zero d r' := by
  unfold slot setHasAtLeastOneChild modifyChunk live
  by_cases hk : r'.chunk = r.chunk
  · simp only [hk, if_true]
    cases hs : s r.chunk with
    | none => simp
    | some k =>
      simp only [Option.map_some, Option.isSome_some, and_true]
      by_cases hi : r'.index d = r.index d
      · rw [if_pos (ChunkNode.index_inj hd hc h' h hk hi)]; simp [hi]
      · have hne : r' ≠ r := fun e => hi (by rw [e])
        simp [hi, hne]
  · simp only [hk, if_false]
    rw [if_neg (fun e => hk (by rw [e.1]))]

theorem alloc_snd (zero : α) (s : Chunks α) (r : ChunkNode) (i : Fin (2 ^ d)) :
    (s.getOrAllocateChild zero d c r i).2 = r.child d c i := by
  unfold getOrAllocateChild ChunkNode.child
  split <;> rfl

theorem alloc_slot (hd : 0 < d) (hc : c ≤ 64 / d - 1) (zero : α) (s : Chunks α) {r r' : ChunkNode}
    (h : r.Ok d c) (h' : r'.Ok d c) (i : Fin (2 ^ d)) :
    (s.getOrAllocateChild zero d c r i).1.slot zero d r'
      = if r' = r ∧ s.live r = true then ((s.slot zero d r').1, true) else s.slot zero d r' := by
  rw [← setBit_slot hd hc zero s h h' true]
  unfold getOrAllocateChild
  generalize s.setHasAtLeastOneChild d r true = s'
  dsimp only
  split
  · unfold slot
    dsimp only
    by_cases hk : r'.chunk = r.chunk ++ [r.childDist d i]
    · rw [if_pos hk]
      cases hs : s' r'.chunk with
      | none => simp [Chunk.fresh]
      | some k => simp
    · rw [if_neg hk]
  · rfl

theorem alloc_live (zero : α) (s : Chunks α) (r r' : ChunkNode) (i : Fin (2 ^ d)) :
    (s.getOrAllocateChild zero d c r i).1.live r'
      = (s.live r' || (decide (r.depth + 1 = c) && decide (r'.chunk = r.chunk ++ [r.childDist d i]))) := by
  rw [← setBit_live s r r' true (d := d)]
  unfold getOrAllocateChild
  generalize s.setHasAtLeastOneChild d r true = s'
  dsimp only
  split
  · rename_i hb
    unfold live
    dsimp only
    by_cases hk : r'.chunk = r.chunk ++ [r.childDist d i]
    · rw [if_pos hk]; simp [hk, hb]
    · rw [if_neg hk]; simp [hk]
  · rename_i hb; simp [hb]

/-- The addresses whose level distance, at depth `cd` of chunk `k`, is within `[lo, hi)`. -/
def InErase (d c : Nat) (k : List Nat) (cd lo hi : Nat) (r : ChunkNode) : Prop :=
  (r.chunk = k ∧ cd ≤ r.depth ∧ lo ≤ r.dist / 2 ^ (d * (r.depth - cd)) ∧ r.dist / 2 ^ (d * (r.depth - cd)) < hi) ∨
  (r.chunk.take k.length = k ∧ ∃ m, r.chunk[k.length]? = some m ∧
    lo ≤ m / 2 ^ (d * (c - cd)) ∧ m / 2 ^ (d * (c - cd)) < hi)

theorem range_shift (d m cd lo hi x : Nat) (h : cd + 1 ≤ m) :
    (lo <<< d ≤ x / 2 ^ (d * (m - (cd + 1))) ∧ x / 2 ^ (d * (m - (cd + 1))) < hi <<< d) ↔
    (lo ≤ x / 2 ^ (d * (m - cd)) ∧ x / 2 ^ (d * (m - cd)) < hi) := by
  have e : x / 2 ^ (d * (m - cd)) = x / 2 ^ (d * (m - (cd + 1))) / 2 ^ d := by
    rw [Nat.div_div_eq_div_mul, ← Nat.pow_add]
    congr 2
    rw [show m - cd = (m - (cd + 1)) + 1 by omega, Nat.mul_add, Nat.mul_one]
  rw [e, Nat.shiftLeft_eq, Nat.shiftLeft_eq, Nat.le_div_iff_mul_le (Nat.two_pow_pos d),
    Nat.div_lt_iff_lt_mul (Nat.two_pow_pos d)]

theorem clearLevel_effect (hd : 0 < d) (hc : c ≤ 64 / d - 1) (zero : α) (k : List Nat) (cd lo hi : Nat)
    (hcd : cd < c) (hhi : hi ≤ 2 ^ (d * cd)) (s : Chunks α) (r : ChunkNode) (hr : r.Ok d c) :
    (s.clearLevel zero d k cd lo hi).slot zero d r
        = (if r.chunk = k ∧ r.depth = cd ∧ lo ≤ r.dist ∧ r.dist < hi then (zero, false) else s.slot zero d r) ∧
    (s.clearLevel zero d k cd lo hi).live r = s.live r := by
  constructor
  · unfold clearLevel modifyChunk slot
    by_cases hk : r.chunk = k
    · simp only [hk, true_and, if_true]
      cases hs : s k with
      | none => simp
      | some ck =>
        simp only [Option.map_some]
        have hb : (numTotalNodesFast d cd + lo ≤ r.index d ∧ r.index d < numTotalNodesFast d cd + hi) ↔
            (r.depth = cd ∧ lo ≤ r.dist ∧ r.dist < hi) := by
          rw [ChunkNode.index_eq hd hc hr, C09_total_nodes_fast d cd hd (by omega)]
          have h2 := hr.2
          rw [Nat.pow_mul] at h2 hhi
          constructor
          · intro ⟨h3, h4⟩
            rcases Nat.lt_trichotomy r.depth cd with h5 | h5 | h5
            · have := ChunkNode.perfectTreeNodes_mono d h5; omega
            · rw [h5] at h3 h4; exact ⟨h5, by omega, by omega⟩
            · have := ChunkNode.perfectTreeNodes_mono d h5; omega
          · rintro ⟨h3, h4, h5⟩
            rw [h3]; omega
        by_cases hx : r.depth = cd ∧ lo ≤ r.dist ∧ r.dist < hi
        · rw [if_pos hx, if_pos (hb.2 hx), if_pos (hb.2 hx)]
        · rw [if_neg hx, if_neg (fun e => hx (hb.1 e)), if_neg (fun e => hx (hb.1 e))]
    · simp only [hk, if_false, false_and]
  · unfold clearLevel live modifyChunk
    dsimp only
    split <;> simp

open Classical in
theorem eraseLevels_effect (hd : 0 < d) (hc : c ≤ 64 / d - 1) (zero : α) (k : List Nat) (n cd lo hi : Nat)
    (hn : cd + n = c) (hcd : 0 < cd) (hhi : hi ≤ 2 ^ (d * cd)) (s : Chunks α) (r : ChunkNode) (hr : r.Ok d c) :
    (eraseLevels zero d c k (n + 1) cd lo hi s).slot zero d r
        = (if InErase d c k cd lo hi r then (zero, false) else s.slot zero d r) ∧
    (r.depth = 0 → (eraseLevels zero d c k (n + 1) cd lo hi s).live r
        = (if InErase d c k cd lo hi r then false else s.live r)) := by
  induction n generalizing cd lo hi s with
  | zero =>
    have hcd' : cd = c := by omega
    subst hcd'
    have hiff : InErase d cd k cd lo hi r ↔
        (r.chunk.take k.length = k ∧ ∃ m, r.chunk[k.length]? = some m ∧ lo ≤ m ∧ m < hi) := by
      unfold InErase
      rw [Nat.sub_self, Nat.mul_zero, Nat.pow_zero]
      simp only [Nat.div_one]
      constructor
      · rintro (⟨_, h, _⟩ | h)
        · have := hr.1; omega
        · exact h
      · exact Or.inr
    have e : eraseLevels zero d cd k (0 + 1) cd lo hi s = s.eraseChunks k lo hi := by
      simp [eraseLevels]
    rw [e]
    unfold slot live eraseChunks
    by_cases hx : r.chunk.take k.length = k ∧ ∃ m, r.chunk[k.length]? = some m ∧ lo ≤ m ∧ m < hi
    · rw [if_pos (hiff.2 hx), if_pos (hiff.2 hx), if_pos hx]; simp
    · rw [if_neg (fun e => hx (hiff.1 e)), if_neg (fun e => hx (hiff.1 e)), if_neg hx]; simp
  | succ n ih =>
    have e : eraseLevels zero d c k (n + 1 + 1) cd lo hi s
        = eraseLevels zero d c k (n + 1) (cd + 1) (lo <<< d) (hi <<< d) (s.clearLevel zero d k cd lo hi) := by
      have : ¬ cd = c := by omega
      rw [eraseLevels, if_neg this]
    have hhi' : hi <<< d ≤ 2 ^ (d * (cd + 1)) := by
      rw [Nat.shiftLeft_eq, Nat.mul_add, Nat.mul_one, Nat.pow_add]
      exact Nat.mul_le_mul_right _ hhi
    obtain ⟨h1, h2⟩ := ih (cd + 1) (lo <<< d) (hi <<< d) (by omega) (by omega) hhi' (s.clearLevel zero d k cd lo hi)
    obtain ⟨h3, h4⟩ := clearLevel_effect hd hc zero k cd lo hi (by omega) hhi s r hr
    have hiff : InErase d c k cd lo hi r ↔
        (r.chunk = k ∧ r.depth = cd ∧ lo ≤ r.dist ∧ r.dist < hi) ∨
          InErase d c k (cd + 1) (lo <<< d) (hi <<< d) r := by
      unfold InErase
      constructor
      · rintro (⟨a1, a2, a3⟩ | ⟨a1, m, a2, a3⟩)
        · by_cases he : r.depth = cd
          · left
            rw [he, Nat.sub_self, Nat.mul_zero, Nat.pow_zero, Nat.div_one] at a3
            exact ⟨a1, he, a3⟩
          · right; left
            exact ⟨a1, by omega, (range_shift d _ _ _ _ _ (by omega)).2 a3⟩
        · right; right
          exact ⟨a1, m, a2, (range_shift d _ _ _ _ _ (by omega)).2 a3⟩
      · rintro (⟨a1, a2, a3⟩ | ⟨a1, a2, a3⟩ | ⟨a1, m, a2, a3⟩)
        · left
          refine ⟨a1, by omega, ?_⟩
          rw [a2, Nat.sub_self, Nat.mul_zero, Nat.pow_zero, Nat.div_one]; exact a3
        · left
          exact ⟨a1, by omega, (range_shift d _ _ _ _ _ a2).1 a3⟩
        · right
          exact ⟨a1, m, a2, (range_shift d _ _ _ _ _ (by omega)).1 a3⟩
    rw [e]
    constructor
    · rw [h1, h3]
      by_cases hx : InErase d c k (cd + 1) (lo <<< d) (hi <<< d) r
      · rw [if_pos hx, if_pos (hiff.2 (Or.inr hx))]
      · rw [if_neg hx]
        by_cases hy : r.chunk = k ∧ r.depth = cd ∧ lo ≤ r.dist ∧ r.dist < hi
        · rw [if_pos hy, if_pos (hiff.2 (Or.inl hy))]
        · rw [if_neg hy, if_neg (fun e => (hiff.1 e).elim hy hx)]
    · intro h0
      rw [h2 h0, h4]
      by_cases hx : InErase d c k (cd + 1) (lo <<< d) (hi <<< d) r
      · rw [if_pos hx, if_pos (hiff.2 (Or.inr hx))]
      · rw [if_neg hx, if_neg (fun e => (hiff.1 e).elim (fun hy => by omega) hx)]

theorem erase_effect (hd : 0 < d) (hc : 0 < c) (hc' : c ≤ 64 / d - 1) (zero : α) (s : Chunks α)
    (p q : List (Fin (2 ^ d))) (i : Fin (2 ^ d)) (hb : s.hasAtLeastOneChild d (ofPath d c p) = true) :
    (s.eraseChild zero d c (ofPath d c p) i).slot zero d (ofPath d c q)
        = (if p ++ [i] <+: q then (zero, false) else s.slot zero d (ofPath d c q)) ∧
    ((ofPath d c q).depth = 0 → (s.eraseChild zero d c (ofPath d c p) i).live (ofPath d c q)
        = (if p ++ [i] <+: q then false else s.live (ofPath d c q))) := by
  have hp := ofPath_ok (d := d) hc p
  have hq := ofPath_ok (d := d) hc q
  have hbel := below_iff (d := d) hc p q i
  have hiff : InErase d c (ofPath d c p).chunk ((ofPath d c p).depth + 1) ((ofPath d c p).childDist d i)
      ((ofPath d c p).childDist d i + 1) (ofPath d c q) ↔ p ++ [i] <+: q := by
    rw [← hbel]
    unfold InErase Below
    simp only [Nat.lt_succ_iff]
    constructor
    · rintro (⟨a1, a2, a3, a4⟩ | ⟨a1, m, a2, a3, a4⟩)
      · exact Or.inl ⟨a1, a2, by omega⟩
      · exact Or.inr ⟨a1, m, a2, by omega⟩
    · rintro (⟨a1, a2, a3⟩ | ⟨a1, m, a2, a3⟩)
      · exact Or.inl ⟨a1, a2, by omega, by omega⟩
      · exact Or.inr ⟨a1, m, a2, by omega, by omega⟩
  have e : s.eraseChild zero d c (ofPath d c p) i
      = eraseLevels zero d c (ofPath d c p).chunk (c - ((ofPath d c p).depth + 1) + 1) ((ofPath d c p).depth + 1)
        ((ofPath d c p).childDist d i) ((ofPath d c p).childDist d i + 1) s := by
    rw [eraseChild, hb]
    have := hp.1
    rw [show c - (ofPath d c p).depth = c - ((ofPath d c p).depth + 1) + 1 by omega]
    simp
  have hhi : (ofPath d c p).childDist d i + 1 ≤ 2 ^ (d * ((ofPath d c p).depth + 1)) := by
    rw [childDist_eq, Nat.mul_add, Nat.mul_one, Nat.pow_add]
    have h2 := hp.2
    have h3 := i.isLt
    calc (ofPath d c p).dist * 2 ^ d + i.val + 1 ≤ (ofPath d c p).dist * 2 ^ d + 1 * 2 ^ d := by omega
      _ = ((ofPath d c p).dist + 1) * 2 ^ d := by rw [Nat.add_mul]
      _ ≤ 2 ^ (d * (ofPath d c p).depth) * 2 ^ d := Nat.mul_le_mul_right _ h2
  have := eraseLevels_effect hd hc' zero (ofPath d c p).chunk (c - ((ofPath d c p).depth + 1))
    ((ofPath d c p).depth + 1) ((ofPath d c p).childDist d i) ((ofPath d c p).childDist d i + 1)
    (by have := hp.1; omega) (by omega) hhi s (ofPath d c q) hq
  rw [e]
  by_cases hx : p ++ [i] <+: q
  · rw [if_pos (hiff.2 hx), if_pos (hiff.2 hx)] at this
    rw [if_pos hx, if_pos hx]; exact this
  · rw [if_neg (fun h => hx (hiff.1 h)), if_neg (fun h => hx (hiff.1 h))] at this
    rw [if_neg hx, if_neg hx]; exact this

end Chunks
end Wavemap
