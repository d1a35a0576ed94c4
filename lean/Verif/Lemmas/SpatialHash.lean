import Verif.Model.SpatialHash
import Mathlib.Data.List.Nodup
/-! # Helper lemmas about spatial hashes -/
namespace Wavemap
namespace SpatialHash
variable {d : Nat} {β : Type}

/-- The keys of the hash, in iteration order. -/
def keys (m : SpatialHash d β) : List (Index d) := m.map Prod.fst

theorem getBlock_eq_none {m : SpatialHash d β} {k : Index d} :
    m.getBlock k = none ↔ k ∉ m.keys := by
  induction m with
  | nil => simp [getBlock, keys]
  | cons e m ih =>
    obtain ⟨k', b⟩ := e
    simp only [getBlock, keys, List.map_cons, List.mem_cons, not_or]
    by_cases h : k' = k
    · simp [h]
    · rw [if_neg h, ih]; simp [keys, Ne.symm h]

theorem mem_of_getBlock {m : SpatialHash d β} {k : Index d} {b : β} (h : m.getBlock k = some b) :
    (k, b) ∈ m := by
  induction m with
  | nil => simp [getBlock] at h
  | cons e m ih =>
    obtain ⟨k', b'⟩ := e
    simp only [getBlock] at h
    by_cases hk : k' = k
    · rw [if_pos hk] at h; simp_all
    · rw [if_neg hk] at h; exact List.mem_cons_of_mem _ (ih h)

theorem getBlock_of_mem {m : SpatialHash d β} (hn : m.keys.Nodup) {k : Index d} {b : β}
    (h : (k, b) ∈ m) : m.getBlock k = some b := by
  induction m with
  | nil => simp at h
  | cons e m ih =>
    obtain ⟨k', b'⟩ := e
    simp only [keys, List.map_cons, List.nodup_cons] at hn
    simp only [getBlock]
    rcases List.mem_cons.1 h with h | h
    · cases h; simp
    · have : k' ≠ k := fun e => hn.1 (e ▸ List.mem_map_of_mem (f := Prod.fst) h)
      rw [if_neg this]; exact ih hn.2 h

theorem getBlock_getOrAllocate (m : SpatialHash d β) (k j : Index d) (b : β) :
    (m.getOrAllocateBlock k b).getBlock j
      = if j = k then some ((m.getBlock k).getD b) else m.getBlock j := by
  unfold getOrAllocateBlock
  cases h : m.getBlock k with
  | some x => by_cases hj : j = k <;> simp [hj, h]
  | none =>
    by_cases hj : j = k
    · simp [hj, getBlock]
    · simp [hj, getBlock, Ne.symm hj]

theorem getBlock_modify (m : SpatialHash d β) (k j : Index d) (f : β → β) :
    (m.modifyBlock k f).getBlock j
      = if j = k then (m.getBlock k).map f else m.getBlock j := by
  unfold modifyBlock
  induction m with
  | nil => simp [getBlock]
  | cons e m ih =>
    obtain ⟨k', b⟩ := e
    simp only [List.map_cons]
    by_cases h : k' = k
    · subst h
      by_cases hj : j = k'
      · simp [getBlock, hj]
      · simp only [if_true, getBlock, Ne.symm hj, if_false, hj] at ih ⊢; exact ih
    · simp only [h, if_false, getBlock]
      by_cases hj : k' = j
      · subst hj; simp [h]
      · simp only [hj, if_false]; exact ih

theorem getBlock_erase (m : SpatialHash d β) (k j : Index d) :
    (m.eraseBlock k).getBlock j = if j = k then none else m.getBlock j := by
  unfold eraseBlock
  induction m with
  | nil => simp [getBlock]
  | cons e m ih =>
    obtain ⟨k', b⟩ := e
    rw [List.filter_cons]
    by_cases h : k' = k
    · subst h
      simp only [ne_eq, not_true_eq_false, decide_false, Bool.false_eq_true, if_false, ih]
      by_cases hj : j = k'
      · simp [hj]
      · simp [hj, getBlock, Ne.symm hj]
    · simp only [ne_eq, h, not_false_eq_true, decide_true, if_true, getBlock]
      by_cases hj : k' = j
      · subst hj; simp [h]
      · simp only [hj, if_false]; exact ih

theorem getBlock_mapBlocks (m : SpatialHash d β) (j : Index d) (f : Index d → β → β) :
    (m.mapBlocks f).getBlock j = (m.getBlock j).map (f j) := by
  unfold mapBlocks
  induction m with
  | nil => simp [getBlock]
  | cons e m ih =>
    obtain ⟨k', b⟩ := e
    simp only [List.map_cons, getBlock]
    by_cases hj : k' = j
    · subst hj; simp
    · simp only [hj, if_false]; exact ih

theorem getBlock_eraseBlockIf (m : SpatialHash d β) (hn : m.keys.Nodup) (j : Index d)
    (f : Index d → β → β × Bool) :
    (m.eraseBlockIf f).getBlock j
      = (m.getBlock j).bind fun b => if (f j b).2 then none else some (f j b).1 := by
  unfold eraseBlockIf
  induction m with
  | nil => simp [getBlock]
  | cons e m ih =>
    obtain ⟨k', b⟩ := e
    simp only [keys, List.map_cons, List.nodup_cons] at hn
    have ih := ih hn.2
    rw [List.filterMap_cons]
    by_cases hj : k' = j
    · subst hj
      by_cases hf : (f k' b).2
      · simp only [hf, if_true, getBlock, Option.bind_some, ih]
        rw [getBlock_eq_none.2 hn.1]; rfl
      · simp [hf, getBlock]
    · by_cases hf : (f k' b).2
      · simp only [hf, if_true, ih, getBlock, hj, if_false]
      · simp only [hf, Bool.false_eq_true, if_false, getBlock, hj]
        exact ih

theorem keys_getOrAllocate (m : SpatialHash d β) (k : Index d) (b : β) (hn : m.keys.Nodup) :
    (m.getOrAllocateBlock k b).keys.Nodup := by
  unfold getOrAllocateBlock
  cases h : m.getBlock k with
  | some x => exact hn
  | none => exact List.nodup_cons.2 ⟨getBlock_eq_none.1 h, hn⟩

theorem keys_modify (m : SpatialHash d β) (k : Index d) (f : β → β) :
    (m.modifyBlock k f).keys = m.keys := by
  simp only [keys, modifyBlock, List.map_map]
  apply List.map_congr_left
  intro e _
  simp only [Function.comp]
  split <;> rfl

theorem keys_mapBlocks (m : SpatialHash d β) (f : Index d → β → β) :
    (m.mapBlocks f).keys = m.keys := by
  simp only [keys, mapBlocks, List.map_map]
  rfl

theorem keys_erase (m : SpatialHash d β) (k : Index d) (hn : m.keys.Nodup) :
    (m.eraseBlock k).keys.Nodup :=
  hn.sublist ((List.filter_sublist (l := m)).map _)

theorem keys_eraseBlockIf (m : SpatialHash d β) (f : Index d → β → β × Bool) (hn : m.keys.Nodup) :
    (m.eraseBlockIf f).keys.Nodup := by
  refine hn.sublist ?_
  unfold eraseBlockIf keys
  induction m with
  | nil => simp
  | cons e m ih =>
    rw [List.filterMap_cons, List.map_cons]
    simp only [keys, List.map_cons, List.nodup_cons] at hn
    split
    · next h => exact (ih hn.2).cons _
    · next h =>
      dsimp only at h
      split at h
      · cases h
      · cases h; exact (ih hn.2).cons_cons _

end SpatialHash
end Wavemap
