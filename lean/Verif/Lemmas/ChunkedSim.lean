import Verif.Lemmas.ChunkedNdtree
/-! # Chunked and plain trees side by side -/
namespace Wavemap
open ChunkNode (root ofPath ofPath_nil ofPath_snoc ofPath_ok ofPath_inj)

namespace NTree
variable {n : Nat} {α : Type}

/-- Whether the node at the end of a path has a children array. -/
def arr (t : NTree n α) (p : List (Fin n)) : Bool := (t.descend p).hasChildrenArray

@[simp] theorem arr_nil_path (t : NTree n α) : t.arr [] = t.hasChildrenArray := by simp [arr]
@[simp] theorem arr_cons (t : NTree n α) (i p) : t.arr (i :: p) = (t.child i).arr p := by simp [arr]
@[simp] theorem nil_arr (p) : (nil : NTree n α).arr p = false := by simp [arr, hasChildrenArray]

theorem arr_lookup {t : NTree n α} {p} (h : t.arr p = true) : (t.lookup p).isSome = true := by
  unfold arr at h
  unfold lookup
  cases hs : t.descend p <;> simp_all [hasChildrenArray]

theorem lookup_isSome {t : NTree n α} {p} : (t.lookup p).isSome = true ↔ t.descend p ≠ nil := by
  unfold lookup
  cases hs : t.descend p <;> simp

theorem isNil_false {t : NTree n α} : t.isNil = false ↔ t ≠ nil := by
  cases t <;> simp [isNil]

theorem child_arr {t : NTree n α} {p i} (h : t.descend (p ++ [i]) ≠ nil) : t.arr p = true := by
  rw [descend_append] at h
  unfold arr
  cases hs : t.descend p <;> simp_all [hasChildrenArray]

theorem getOrAllocateChild_arr (t : NTree n α) (i dflt q) :
    (t.getOrAllocateChild i dflt).arr q = (t.child i).arr q := by
  unfold getOrAllocateChild
  split
  · rename_i h; rw [h]
    cases q <;> simp [hasChildrenArray]
  · rfl

theorem setChild_hasArray (t : NTree n α) (ht : t ≠ nil) (i c) : (t.setChild i c).hasChildrenArray = true := by
  cases t <;> simp_all [setChild, hasChildrenArray]

theorem allocPath_arr (dflt : α) (t : NTree n α) (ht : t ≠ nil) (p q : List (Fin n)) :
    (allocPath dflt t p).arr q = if q <+: p ∧ q ≠ p then true else t.arr q := by
  induction p generalizing t q with
  | nil =>
    have : ¬ (q <+: [] ∧ q ≠ []) := by
      intro ⟨h1, h2⟩; exact h2 (List.prefix_nil.mp h1)
    rw [if_neg this]
    cases t <;> rfl
  | cons i p ih =>
    have e : allocPath dflt t (i :: p) = t.setChild i (allocPath dflt (t.getOrAllocateChild i dflt) p) := by
      cases t <;> rfl
    rw [e]
    cases q with
    | nil => simp [setChild_hasArray t ht]
    | cons j q =>
      rw [arr_cons, setChild_child t ht]
      by_cases hj : j = i
      · subst hj
        rw [if_pos rfl, ih _ (getOrAllocateChild_ne_nil _ _ _), getOrAllocateChild_arr, arr_cons]
        simp
      · rw [if_neg hj, arr_cons]
        have : ¬ (j :: q <+: i :: p) := by
          intro h; exact hj (List.cons_prefix_cons.mp h).1
        simp [this]

theorem modifyAt_arr_of_not_prefix (f : NTree n α → NTree n α) (t : NTree n α)
    (p q : List (Fin n)) (hp : p ≠ []) (h : ¬ p <+: q) : (modifyAt f t p).arr q = t.arr q := by
  induction p generalizing t q with
  | nil => exact absurd rfl hp
  | cons i p ih =>
    cases q with
    | nil => cases t <;> simp [modifyAt, hasChildrenArray]
    | cons j q =>
      rw [arr_cons, modifyAt_cons, arr_cons]
      by_cases hj : j = i
      · subst hj
        rw [if_pos rfl]
        have h' : ¬ p <+: q := fun hh => h (List.cons_prefix_cons.mpr ⟨rfl, hh⟩)
        exact ih _ _ (by rintro rfl; exact h' List.nil_prefix) h'
      · rw [if_neg hj]

end NTree
open NTree

namespace Chunks
variable {α : Type} {d c : Nat}

/-- The nodes at and below path `p` of the chunked tree hold what the plain tree `t` holds: missing nodes
read as `zero` without children, and chunks exist exactly for allocated nodes. -/
structure Sub (zero : α) (d c : Nat) (s : Chunks α) (p : List (Fin (2 ^ d))) (t : NTree (2 ^ d) α) : Prop where
  data : ∀ q, (s.slot zero d (ofPath d c (p ++ q))).1 = (t.lookup q).getD zero
  bit : ∀ q, (s.slot zero d (ofPath d c (p ++ q))).2 = t.arr q
  chunk : ∀ q, (ofPath d c (p ++ q)).depth = 0 → s.live (ofPath d c (p ++ q)) = (t.lookup q).isSome

/-- Nothing outside the subtree at `p` changed. -/
def Frame (zero : α) (d c : Nat) (s s' : Chunks α) (p : List (Fin (2 ^ d))) : Prop :=
  ∀ q, ¬ p <+: q → s'.slot zero d (ofPath d c q) = s.slot zero d (ofPath d c q) ∧
    ((ofPath d c q).depth = 0 → s'.live (ofPath d c q) = s.live (ofPath d c q))

theorem Sub.child {zero : α} {s : Chunks α} {p t} (h : Sub zero d c s p t) (i : Fin (2 ^ d)) :
    Sub zero d c s (p ++ [i]) (t.child i) := by
  refine ⟨fun q => ?_, fun q => ?_, fun q => ?_⟩
  · have := h.data (i :: q); simpa using this
  · have := h.bit (i :: q); simpa using this
  · have := h.chunk (i :: q); simpa using this

theorem Sub.descend {zero : α} {s : Chunks α} {p t} (h : Sub zero d c s p t) (q) :
    Sub zero d c s (p ++ q) (t.descend q) := by
  induction q generalizing p t with
  | nil => simpa using h
  | cons i q ih => have := ih (h.child i); simpa using this

theorem Sub.live {zero : α} {s : Chunks α} {t} (h : Sub zero d c s [] t) {p} (hp : t.descend p ≠ nil) :
    s.live (ofPath d c p) = true := by
  obtain ⟨q, ⟨u, hu⟩, h2, h3⟩ := ChunkNode.chunk_root (c := c) p
  have h4 := h.chunk q h2
  rw [List.nil_append] at h4
  have h5 : t.descend q ≠ nil := by
    intro h6
    rw [← hu, descend_append, h6] at hp
    simp at hp
  unfold Chunks.live at h4 ⊢
  rw [← h3, h4]
  exact lookup_isSome.2 h5

theorem Sub.congr {zero : α} {s s' : Chunks α} {p t} (h : Sub zero d c s p t)
    (h1 : ∀ q, s'.slot zero d (ofPath d c (p ++ q)) = s.slot zero d (ofPath d c (p ++ q)))
    (h2 : ∀ q, (ofPath d c (p ++ q)).depth = 0 → s'.live (ofPath d c (p ++ q)) = s.live (ofPath d c (p ++ q))) :
    Sub zero d c s' p t :=
  ⟨fun q => by rw [h1]; exact h.data q, fun q => by rw [h1]; exact h.bit q, fun q hq => by rw [h2 q hq]; exact h.chunk q hq⟩

/-- `getChild` in terms of observations. -/
theorem getChild_eq (zero : α) (s : Chunks α) (p : List (Fin (2 ^ d))) (i : Fin (2 ^ d)) :
    s.getChild d c (ofPath d c p) i
      = if (s.slot zero d (ofPath d c p)).2 = true ∧
          ((ofPath d c (p ++ [i])).depth = 0 → s.live (ofPath d c (p ++ [i])) = true)
        then some (ofPath d c (p ++ [i])) else none := by
  rw [ofPath_snoc]
  unfold getChild
  rw [bit_slot zero]
  cases hb : (s.slot zero d (ofPath d c p)).2 with
  | false => simp
  | true =>
    simp only [Bool.not_true, Bool.false_eq_true, if_false, true_and]
    unfold ChunkNode.child Chunks.live
    by_cases hk : (ofPath d c p).depth + 1 = c
    · simp only [hk, if_true]
      cases s ((ofPath d c p).chunk ++ [(ofPath d c p).childDist d i]) <;> simp
    · simp [hk]

/-- `getChild` on related trees. -/
theorem Sub.getChild {zero : α} {s : Chunks α} {p t} (h : Sub zero d c s p t) (i : Fin (2 ^ d)) :
    s.getChild d c (ofPath d c p) i
      = if t.hasChildrenArray = true ∧ ((ofPath d c (p ++ [i])).depth = 0 → (t.child i).isNil = false)
        then some (ofPath d c (p ++ [i])) else none := by
  rw [getChild_eq zero]
  have h1 := h.bit []
  rw [List.append_nil, arr_nil_path] at h1
  have h2 := h.chunk [i]
  rw [h1]
  have : ((ofPath d c (p ++ [i])).depth = 0 → s.live (ofPath d c (p ++ [i])) = true) ↔
      ((ofPath d c (p ++ [i])).depth = 0 → (t.child i).isNil = false) := by
    constructor
    · intro h3 h4
      have := h3 h4
      rw [h2 h4] at this
      have := lookup_isSome.1 this
      rw [isNil_false]
      simpa using this
    · intro h3 h4
      rw [h2 h4]
      apply lookup_isSome.2
      have := isNil_false.1 (h3 h4)
      simpa using this
  by_cases hx : t.hasChildrenArray = true ∧ ((ofPath d c (p ++ [i])).depth = 0 → (t.child i).isNil = false)
  · rw [if_pos hx, if_pos ⟨hx.1, this.2 hx.2⟩]
  · rw [if_neg hx, if_neg (fun h => hx ⟨h.1, this.1 h.2⟩)]

theorem descend_snoc (s : Chunks α) (r : ChunkNode) (p : List (Fin (2 ^ d))) (i) :
    s.descend d c r (p ++ [i]) = (s.descend d c r p).bind fun r' => s.getChild d c r' i := by
  induction p generalizing r with
  | nil =>
    simp only [List.nil_append, Chunks.descend, Option.bind_some]
    cases s.getChild d c r i <;> rfl
  | cons j p ih =>
    simp only [List.cons_append, Chunks.descend]
    cases s.getChild d c r j with
    | none => rfl
    | some r' => simpa using ih r'

/-- When `getNode` finds a node of the chunked tree. -/
theorem Sub.descend_root {zero : α} {s : Chunks α} {t} (h : Sub zero d c s [] t) (p : List (Fin (2 ^ d))) (i) :
    s.descend d c root (p ++ [i])
      = if t.arr p = true ∧ ((ofPath d c (p ++ [i])).depth = 0 → (t.descend (p ++ [i])).isNil = false)
        then some (ofPath d c (p ++ [i])) else none := by
  have hdesc : ∀ q, t.descend q ≠ nil → s.descend d c root q = some (ofPath d c q) := by
    intro q
    induction q using List.reverseRecOn with
    | nil => intro _; rfl
    | append_singleton q j ih =>
      intro hq
      have hq' : t.descend q ≠ nil := by
        intro h6; rw [descend_append, h6] at hq; simp at hq
      rw [descend_snoc, ih hq']
      have := (h.descend q).getChild j
      rw [List.nil_append] at this
      simp only [Option.bind_some]
      rw [this, if_pos]
      refine ⟨child_arr hq, fun _ => ?_⟩
      rw [descend_append] at hq
      rw [isNil_false]
      simpa using hq
  rw [descend_snoc]
  by_cases ha : t.arr p = true
  · have hp : t.descend p ≠ nil := lookup_isSome.1 (arr_lookup ha)
    rw [hdesc p hp]
    have := (h.descend p).getChild i
    rw [List.nil_append] at this
    simp only [Option.bind_some]
    rw [this]
    have e : t.descend (p ++ [i]) = (t.descend p).child i := by rw [descend_append]; simp
    rw [e]
    unfold arr
    rfl
  · rw [if_neg (fun h => ha h.1)]
    cases hs : s.descend d c root p with
    | none => rfl
    | some r =>
      -- the node found is the one at `p`
      have hr : r = ofPath d c p := by
        cases p using List.reverseRecOn with
        | nil => simp [Chunks.descend] at hs; exact hs.symm
        | append_singleton p j =>
          rw [descend_snoc] at hs
          have key : ∀ (q : List (Fin (2 ^ d))) r, s.descend d c root q = some r → r = ofPath d c q := by
            intro q
            induction q using List.reverseRecOn with
            | nil => intro r hr; simp [Chunks.descend] at hr; exact hr.symm
            | append_singleton q j ih =>
              intro r hr
              rw [descend_snoc] at hr
              cases hq : s.descend d c root q with
              | none => rw [hq] at hr; simp at hr
              | some r' =>
                rw [hq, ih r' hq] at hr
                simp only [Option.bind_some] at hr
                rw [getChild_eq zero] at hr
                split at hr
                · exact (Option.some.inj hr).symm
                · simp at hr
          exact key _ _ (by rw [descend_snoc]; exact hs)
      subst hr
      simp only [Option.bind_some]
      rw [getChild_eq zero, if_neg]
      intro h'
      have := h.bit p
      rw [List.nil_append] at this
      rw [this] at h'
      exact ha h'.1

/-! ## Allocation -/

theorem depth_zero_chunk {p q : List (Fin (2 ^ d))} (hc : 0 < c) (hp : (ofPath d c p).depth = 0)
    (hq : (ofPath d c q).depth = 0) (h : (ofPath d c q).chunk = (ofPath d c p).chunk) : q = p := by
  apply ofPath_inj (c := c)
  have h1 := (ofPath_ok (d := d) hc p).2
  have h2 := (ofPath_ok (d := d) hc q).2
  rw [hp, Nat.mul_zero, Nat.pow_zero] at h1
  rw [hq, Nat.mul_zero, Nat.pow_zero] at h2
  generalize ofPath d c p = a at *
  generalize ofPath d c q = b at *
  cases a; cases b
  simp only at hp hq h h1 h2
  rw [ChunkNode.mk.injEq]
  exact ⟨h, by omega, by omega⟩

theorem alloc_live_path (hc : 0 < c) (zero : α) (s : Chunks α) (p q : List (Fin (2 ^ d))) (i)
    (hq : (ofPath d c q).depth = 0) :
    (s.getOrAllocateChild zero d c (ofPath d c p) i).1.live (ofPath d c q)
      = (s.live (ofPath d c q) || decide (q = p ++ [i])) := by
  rw [alloc_live]
  congr 1
  by_cases hk : (ofPath d c p).depth + 1 = c
  · have e : ofPath d c (p ++ [i]) = ⟨(ofPath d c p).chunk ++ [(ofPath d c p).childDist d i], 0, 0⟩ := by
      rw [ofPath_snoc, ChunkNode.child, if_pos hk]
    rw [decide_eq_true hk, Bool.true_and, decide_eq_decide]
    constructor
    · intro h
      exact depth_zero_chunk hc (by rw [e]) hq (by rw [e]; exact h)
    · rintro rfl; rw [e]
  · have : ¬ (q = p ++ [i]) := by
      rintro rfl
      rw [ofPath_snoc, ChunkNode.child, if_neg hk] at hq
      simp at hq
    simp [hk, this]

theorem alloc_live_self (zero : α) (s : Chunks α) (p : List (Fin (2 ^ d))) (i)
    (hp : s.live (ofPath d c p) = true) :
    (s.getOrAllocateChild zero d c (ofPath d c p) i).1.live (ofPath d c (p ++ [i])) = true := by
  rw [alloc_live, ofPath_snoc, ChunkNode.child]
  split
  · rename_i h; simp [h]
  · unfold Chunks.live at hp ⊢; simp [hp]

theorem allocPath_snoc (zero : α) (s : Chunks α) (r : ChunkNode) (p : List (Fin (2 ^ d))) (i) :
    s.allocPath zero d c r (p ++ [i])
      = (s.allocPath zero d c r p).1.getOrAllocateChild zero d c (s.allocPath zero d c r p).2 i := by
  induction p generalizing s r with
  | nil => rfl
  | cons j p ih => simp only [List.cons_append, Chunks.allocPath]; exact ih _ _

theorem prefix_snoc_proper {β : Type} (q p : List β) (i : β) :
    (q <+: p ++ [i] ∧ q ≠ p ++ [i]) ↔ q <+: p := by
  constructor
  · rintro ⟨h1, h2⟩
    rcases List.prefix_concat_iff.mp h1 with h | h
    · exact absurd h h2
    · exact h
  · intro h
    refine ⟨h.trans (List.prefix_append _ _), ?_⟩
    rintro rfl
    have := h.length_le
    simp at this

theorem allocPath_effect (hd : 0 < d) (hc : 0 < c) (hc' : c ≤ 64 / d - 1) (zero : α) (s : Chunks α)
    (hroot : s.live root = true) (p : List (Fin (2 ^ d))) :
    (s.allocPath zero d c root p).2 = ofPath d c p ∧
    (s.allocPath zero d c root p).1.live (ofPath d c p) = true ∧
    ∀ q, (s.allocPath zero d c root p).1.slot zero d (ofPath d c q)
        = (if q <+: p ∧ q ≠ p then ((s.slot zero d (ofPath d c q)).1, true) else s.slot zero d (ofPath d c q)) ∧
      ((ofPath d c q).depth = 0 → (s.allocPath zero d c root p).1.live (ofPath d c q)
        = (s.live (ofPath d c q) || decide (q <+: p))) := by
  induction p using List.reverseRecOn with
  | nil =>
    refine ⟨rfl, hroot, fun q => ⟨?_, fun hq => ?_⟩⟩
    · rw [if_neg (fun h => h.2 (List.prefix_nil.mp h.1))]; rfl
    · by_cases h : q <+: []
      · have := List.prefix_nil.mp h
        subst this
        show s.live (ofPath d c []) = _
        rw [ofPath_nil, hroot]; simp
      · simp [h, Chunks.allocPath]
  | append_singleton p i ih =>
    obtain ⟨h1, h2, h3⟩ := ih
    rw [allocPath_snoc, h1]
    refine ⟨by rw [alloc_snd, ofPath_snoc], alloc_live_self zero _ p i h2, fun q => ⟨?_, fun hq => ?_⟩⟩
    · rw [alloc_slot hd hc' zero _ (ofPath_ok hc p) (ofPath_ok hc q), (h3 q).1, h2]
      by_cases hqp : q = p
      · subst hqp
        have e1 : q <+: q ++ [i] ∧ q ≠ q ++ [i] := (prefix_snoc_proper q q i).2 List.prefix_rfl
        rw [if_pos ⟨rfl, rfl⟩, if_pos e1, if_neg (fun h => h.2 rfl)]
      · rw [if_neg (fun h => hqp (ofPath_inj h.1))]
        by_cases hpre : q <+: p
        · rw [if_pos ⟨hpre, hqp⟩, if_pos ((prefix_snoc_proper q p i).2 hpre)]
        · rw [if_neg (fun h => hpre h.1), if_neg (fun h => hpre ((prefix_snoc_proper q p i).1 h))]
    · rw [alloc_live_path hc zero _ p q i hq, (h3 q).2 hq, Bool.or_assoc]
      congr 1
      rw [← Bool.decide_or, decide_eq_decide, List.prefix_concat_iff]
      tauto

theorem Sub.alloc (hd : 0 < d) (hc : 0 < c) (hc' : c ≤ 64 / d - 1) {zero : α} {s : Chunks α} {t}
    (h : Sub zero d c s [] t) (ht : t ≠ nil) (p : List (Fin (2 ^ d))) :
    Sub zero d c (s.allocPath zero d c root p).1 [] (t.allocPath zero p) := by
  have hroot : s.live root = true := by
    have := h.live (p := []) (by simpa using ht); rwa [ofPath_nil] at this
  obtain ⟨_, _, h3⟩ := allocPath_effect hd hc hc' zero s hroot p
  refine ⟨fun q => ?_, fun q => ?_, fun q hq => ?_⟩
  · rw [List.nil_append, (h3 q).1, allocPath_lookup zero t ht]
    have := h.data q
    rw [List.nil_append] at this
    have e : (if q <+: p ∧ q ≠ p then ((s.slot zero d (ofPath d c q)).1, true) else s.slot zero d (ofPath d c q)).1
        = (s.slot zero d (ofPath d c q)).1 := by split <;> rfl
    rw [e, this]
    split <;> simp
  · rw [List.nil_append, (h3 q).1, allocPath_arr zero t ht]
    have := h.bit q
    rw [List.nil_append] at this
    rw [← this]
    split <;> rfl
  · rw [List.nil_append] at hq ⊢
    rw [(h3 q).2 hq, allocPath_lookup zero t ht]
    have := h.chunk q
    rw [List.nil_append] at this
    rw [this hq]
    split
    · rename_i hx; simp [hx]
    · rename_i hx; simp [hx]

/-! ## Writing and erasing -/

theorem Sub.setData (hd : 0 < d) (hc : 0 < c) (hc' : c ≤ 64 / d - 1) {zero : α} {s : Chunks α} {t}
    (h : Sub zero d c s [] t) (p : List (Fin (2 ^ d))) (hp : t.descend p ≠ nil) (a : α) :
    Sub zero d c (s.setData d (ofPath d c p) a) [] (t.modifyAt (fun u => u.setData a) p) := by
  have hl := h.live hp
  have hlook : ∀ q, (t.modifyAt (fun u => u.setData a) p).lookup q = if q = p then some a else t.lookup q := by
    intro q
    by_cases hq : p <+: q
    · obtain ⟨u, rfl⟩ := hq
      unfold lookup
      rw [modifyAt_descend, descend_append]
      have hnn : (t.descend p).isNil = false := by
        cases hs : t.descend p <;> simp_all [isNil]
      rw [hnn]
      simp only [Bool.false_eq_true, if_false, List.append_right_eq_self]
      have := setData_lookup (t.descend p) a u
      unfold lookup at this
      rw [this]
      cases u with
      | nil => cases hs : t.descend p <;> simp_all
      | cons => simp
    · rw [modifyAt_lookup_of_not_prefix _ _ _ _ hq, if_neg (by rintro rfl; exact hq List.prefix_rfl)]
  have harr : ∀ q, (t.modifyAt (fun u => u.setData a) p).arr q = t.arr q := by
    intro q
    by_cases hq : p <+: q
    · obtain ⟨u, rfl⟩ := hq
      unfold arr
      rw [modifyAt_descend, descend_append]
      cases hs : t.descend p with
      | nil => exact absurd hs hp
      | leaf b => cases u <;> simp [isNil, NTree.setData, hasChildrenArray]
      | node b ch => cases u <;> simp [isNil, NTree.setData, hasChildrenArray]
    · exact modifyAt_arr_of_not_prefix _ _ _ _ (by rintro rfl; exact hq List.nil_prefix) hq
  refine ⟨fun q => ?_, fun q => ?_, fun q hq => ?_⟩
  · rw [List.nil_append, setData_slot hd hc' zero s (ofPath_ok hc p) (ofPath_ok hc q), hl, hlook]
    have := h.data q
    rw [List.nil_append] at this
    by_cases hqp : q = p
    · subst hqp; simp
    · rw [if_neg (fun h => hqp (ofPath_inj h.1)), if_neg hqp, this]
  · rw [List.nil_append, setData_slot hd hc' zero s (ofPath_ok hc p) (ofPath_ok hc q), harr, ← h.bit q, List.nil_append]
    split <;> rfl
  · rw [List.nil_append] at hq ⊢
    rw [setData_live, hlook]
    have := h.chunk q
    rw [List.nil_append] at this
    rw [this hq]
    split
    · rename_i hx; subst hx; simpa using lookup_isSome.2 hp
    · rfl

theorem eraseChild_arr {n : Nat} (t : NTree n α) (i : Fin n) (q) :
    (t.eraseChild i).1.arr q = if [i] <+: q then false else t.arr q := by
  cases q with
  | nil => cases t <;> simp [NTree.eraseChild, hasChildrenArray]
  | cons j q =>
    cases t with
    | nil => simp [NTree.eraseChild]
    | leaf a => simp [NTree.eraseChild]
    | node a ch =>
      simp only [NTree.eraseChild, arr_cons, child_node]
      by_cases hj : j = i
      · simp [hj]
      · have : ¬ (i = j) := fun h => hj h.symm
        simp [hj, this, List.cons_prefix_cons]

theorem Sub.eraseChild (hd : 0 < d) (hc : 0 < c) (hc' : c ≤ 64 / d - 1) {zero : α} {s : Chunks α} {t}
    (h : Sub zero d c s [] t) (p : List (Fin (2 ^ d))) (i) :
    Sub zero d c (s.eraseChild zero d c (ofPath d c p) i) [] (t.modifyAt (fun u => (u.eraseChild i).1) p) := by
  have hbit := h.bit p
  rw [List.nil_append] at hbit
  by_cases hb : t.arr p = true
  · have hlook : ∀ q, (t.modifyAt (fun u => (u.eraseChild i).1) p).lookup q = if p ++ [i] <+: q then none else t.lookup q := by
      intro q
      by_cases hq : p <+: q
      · obtain ⟨u, rfl⟩ := hq
        have hnn : (t.descend p).isNil = false := by
          have := lookup_isSome.1 (arr_lookup hb)
          cases hs : t.descend p <;> simp_all [isNil]
        unfold lookup
        rw [modifyAt_descend, hnn]
        simp only [Bool.false_eq_true, if_false]
        have := eraseChild_lookup (t.descend p) i u
        unfold lookup at this
        rw [this, descend_append]
        simp only [List.prefix_append_right_inj]
      · rw [modifyAt_lookup_of_not_prefix _ _ _ _ hq, if_neg]
        intro hx; exact hq ((List.prefix_append _ _).trans hx)
    have harr : ∀ q, (t.modifyAt (fun u => (u.eraseChild i).1) p).arr q = if p ++ [i] <+: q then false else t.arr q := by
      intro q
      by_cases hq : p <+: q
      · obtain ⟨u, rfl⟩ := hq
        have hnn : (t.descend p).isNil = false := by
          have := lookup_isSome.1 (arr_lookup hb)
          cases hs : t.descend p <;> simp_all [isNil]
        unfold arr
        rw [modifyAt_descend, hnn]
        simp only [Bool.false_eq_true, if_false]
        have := eraseChild_arr (t.descend p) i u
        unfold arr at this
        rw [this, descend_append]
        simp only [List.prefix_append_right_inj]
      · rw [modifyAt_arr_of_not_prefix _ _ _ _ (by rintro rfl; exact hq List.nil_prefix) hq, if_neg]
        intro hx; exact hq ((List.prefix_append _ _).trans hx)
    have heff := fun q => erase_effect hd hc hc' zero s p q i (by rw [bit_slot zero, hbit]; exact hb)
    refine ⟨fun q => ?_, fun q => ?_, fun q hq => ?_⟩
    · rw [List.nil_append, (heff q).1, hlook]
      have := h.data q
      rw [List.nil_append] at this
      split
      · rfl
      · exact this
    · rw [List.nil_append, (heff q).1, harr]
      have := h.bit q
      rw [List.nil_append] at this
      split
      · rfl
      · exact this
    · rw [List.nil_append] at hq ⊢
      rw [(heff q).2 hq, hlook]
      have := h.chunk q
      rw [List.nil_append] at this
      split
      · rfl
      · exact this hq
  · have e : s.eraseChild zero d c (ofPath d c p) i = s := by
      unfold Chunks.eraseChild
      rw [bit_slot zero, hbit]
      simp [hb]
    rw [e]
    have hobs : ∀ q, (t.modifyAt (fun u => (u.eraseChild i).1) p).lookup q = t.lookup q := by
      intro q
      by_cases hq : p <+: q
      · obtain ⟨u, rfl⟩ := hq
        unfold lookup
        rw [modifyAt_descend, descend_append]
        unfold arr at hb
        cases hs : t.descend p with
        | nil => simp [isNil]
        | leaf b => simp [isNil, NTree.eraseChild]
        | node b ch => rw [hs] at hb; simp [hasChildrenArray] at hb
      · rw [modifyAt_lookup_of_not_prefix _ _ _ _ hq]
    have harr : ∀ q, (t.modifyAt (fun u => (u.eraseChild i).1) p).arr q = t.arr q := by
      intro q
      by_cases hq : p <+: q
      · obtain ⟨u, rfl⟩ := hq
        unfold arr
        rw [modifyAt_descend, descend_append]
        unfold arr at hb
        cases hs : t.descend p with
        | nil => simp [isNil]
        | leaf b => simp [isNil, NTree.eraseChild]
        | node b ch => rw [hs] at hb; simp [hasChildrenArray] at hb
      · rw [modifyAt_arr_of_not_prefix _ _ _ _ (by rintro rfl; exact hq List.nil_prefix) hq]
    exact ⟨fun q => by rw [hobs]; exact h.data q, fun q => by rw [harr]; exact h.bit q,
      fun q hq => by rw [hobs]; exact h.chunk q hq⟩

theorem fresh_sub (hc : 0 < c) (zero : α) : Sub zero d c (fresh zero) [] (.leaf zero) := by
  refine ⟨fun q => ?_, fun q => ?_, fun q hq => ?_⟩
  · rw [List.nil_append]
    have : (slot zero d (fresh zero) (ofPath d c q)) = (zero, false) := by
      unfold slot fresh
      split
      · rfl
      · rename_i k hk
        split at hk
        · cases hk; rfl
        · simp at hk
    rw [this]
    cases q <;> simp
  · rw [List.nil_append]
    have : (slot zero d (fresh zero) (ofPath d c q)) = (zero, false) := by
      unfold slot fresh
      split
      · rfl
      · rename_i k hk
        split at hk
        · cases hk; rfl
        · simp at hk
    rw [this]
    cases q <;> simp [hasChildrenArray]
  · rw [List.nil_append] at hq ⊢
    by_cases hq' : q = []
    · subst hq'; simp [Chunks.live, fresh, ofPath, root]
    · have : (ofPath d c q).chunk ≠ [] := by
        intro h
        apply hq'
        exact depth_zero_chunk hc (p := []) rfl hq h
      cases q with
      | nil => exact absurd rfl hq'
      | cons => simp [Chunks.live, fresh, this]

end Chunks
end Wavemap
