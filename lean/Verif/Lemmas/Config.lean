import Verif.Spec.Config
import Mathlib.Tactic.Common
import Mathlib.Data.Fintype.Basic
import Mathlib.Tactic.FinCases

/-!
# Loading configs: lemmas
-/

namespace Wavemap

theorem Param.Value.Wf.nodup {es} (h : (Param.Value.map es).Wf) : (es.map Prod.fst).Nodup := by
  cases h; assumption

theorem Param.Value.Wf.children {es} (h : (Param.Value.map es).Wf) : ∀ e ∈ es, e.2.Wf := by
  cases h; assumption

theorem lookup_some_mem {β : Type} {es : List (String × β)} {k : String} {v : β} (h : es.lookup k = some v) :
    (k, v) ∈ es := by
  induction es with
  | nil => cases h
  | cons e es ih =>
    obtain ⟨k', v'⟩ := e
    rw [List.lookup_cons] at h
    by_cases hk : k = k'
    · subst hk
      simp at h
      subst h
      exact List.mem_cons_self
    · rw [beq_false_of_ne hk] at h
      exact List.mem_cons_of_mem _ (ih h)

theorem lookup_none_not_mem {β : Type} {es : List (String × β)} {k : String} (h : es.lookup k = none) (v : β) :
    (k, v) ∉ es := by
  intro hm
  have := List.lookup_eq_none_iff.1 h _ hm
  simp at this

theorem mem_lookup {β : Type} {es : List (String × β)} (nd : (es.map Prod.fst).Nodup) {k : String} {v : β}
    (h : (k, v) ∈ es) : es.lookup k = some v := by
  induction es with
  | nil => cases h
  | cons e es ih =>
    obtain ⟨k', v'⟩ := e
    rw [List.map_cons, List.nodup_cons] at nd
    rw [List.lookup_cons]
    rcases List.mem_cons.1 h with he | hm
    · cases he
      simp
    · have hne : k ≠ k' := fun hkk => nd.1 (hkk ▸ List.mem_map.2 ⟨_, hm, rfl⟩)
      rw [beq_false_of_ne hne]
      exact ih nd.2 hm

theorem lookup_iff_mem {β : Type} {es : List (String × β)} (nd : (es.map Prod.fst).Nodup) {k : String} {v : β} :
    es.lookup k = some v ↔ (k, v) ∈ es := ⟨lookup_some_mem, mem_lookup nd⟩

theorem fold_members {C β : Type} (members : List (ConfigMember C)) (get : C → β) (name : String)
    (read : Param.Value → Option β) (hne : name ≠ "type")
    (hmem : ∃ m ∈ members, m.name = name)
    (h : ∀ m ∈ members, ∀ v c, get (m.load v c) = if m.name = name then (read v).getD (get c) else get c)
    (es : List (String × Param.Value)) (nd : (es.map Prod.fst).Nodup) (c : C) :
    get (es.foldl (loadEntry members) c) =
      match es.lookup name with
      | some v => (read v).getD (get c)
      | none => get c := by
  induction es generalizing c with
  | nil => rfl
  | cons e es ih =>
    obtain ⟨k, v⟩ := e
    rw [List.map_cons, List.nodup_cons] at nd
    rw [List.foldl_cons, ih nd.2]
    have hload : get (loadEntry members c (k, v)) = if k = name then (read v).getD (get c) else get c := by
      unfold loadEntry
      dsimp only
      by_cases ht : k = "type"
      · rw [if_pos (by subst ht; rfl), if_neg (by rw [ht]; exact fun hh => hne hh.symm)]
      · rw [if_neg (by rw [beq_iff_eq]; exact ht)]
        cases hf : members.find? (fun m => m.name == k) with
        | none =>
          dsimp only
          rw [if_neg]
          intro hk
          obtain ⟨m, hm, hmn⟩ := hmem
          have := List.find?_eq_none.1 hf m hm
          rw [beq_iff_eq] at this
          exact this (hmn.trans hk.symm)
        | some m =>
          dsimp only
          have hmk : m.name = k := by simpa using List.find?_some hf
          rw [h m (List.mem_of_find?_eq_some hf), hmk]
    rw [List.lookup_cons]
    by_cases hk : k = name
    · subst hk
      have hnone : es.lookup k = none := by
        rw [List.lookup_eq_none_iff]
        intro p hp
        rw [bne_iff_ne]
        intro hpk
        exact nd.1 (List.mem_map.2 ⟨p, hp, hpk.symm⟩)
      rw [hnone, beq_self_eq_true]
      dsimp only
      rw [hload, if_pos rfl]
    · rw [beq_false_of_ne (Ne.symm hk), hload, if_neg hk]

theorem fieldFrom_fold {C β : Type} (members : List (ConfigMember C)) (get : C → β) (name : String)
    (read : Param.Value → Option β) (Reads : Param.Value → β → Prop) (dflt : C)
    (es : List (String × Param.Value)) (wf : (Param.Value.map es).Wf)
    (hR : ∀ v, v.Wf → ∀ x, Reads v x ↔ read v = some x) (hne : name ≠ "type")
    (hmem : ∃ m ∈ members, m.name = name)
    (h : ∀ m ∈ members, ∀ v c, get (m.load v c) = if m.name = name then (read v).getD (get c) else get c) :
    FieldFrom es name Reads (get dflt) (get (es.foldl (loadEntry members) dflt)) := by
  rw [fold_members members get name read hne hmem h es wf.nodup]
  cases hl : es.lookup name with
  | none =>
    refine Or.inr ⟨?_, rfl⟩
    rintro ⟨v, y, hv, -⟩
    exact lookup_none_not_mem hl v hv
  | some v =>
    have hv := lookup_some_mem hl
    have hwf : v.Wf := wf.children _ hv
    dsimp only
    cases hr : read v with
    | some x => exact Or.inl ⟨v, hv, (hR v hwf x).2 hr⟩
    | none =>
      refine Or.inr ⟨?_, rfl⟩
      rintro ⟨v', y, hv', hy⟩
      have := mem_lookup wf.nodup hv'
      rw [hl] at this
      cases this
      rw [hR v hwf, hr] at hy
      cases hy

/-- A field is determined by the entries. -/
theorem FieldFrom.unique {β : Type} {es : List (String × Param.Value)} (wf : (Param.Value.map es).Wf)
    {name : String} {read : Param.Value → Option β} {Reads : Param.Value → β → Prop}
    (hR : ∀ v, v.Wf → ∀ x, Reads v x ↔ read v = some x) {dflt x y : β}
    (hx : FieldFrom es name Reads dflt x) (hy : FieldFrom es name Reads dflt y) : x = y := by
  rcases hx with ⟨v, hv, hvx⟩ | ⟨hno, rfl⟩
  · rcases hy with ⟨w, hw, hwy⟩ | ⟨hno, rfl⟩
    · have h1 := mem_lookup wf.nodup hv
      rw [mem_lookup wf.nodup hw] at h1
      cases h1
      have hwf : v.Wf := wf.children _ hv
      rw [hR v hwf] at hvx hwy
      rw [hvx] at hwy
      cases hwy
      rfl
    · exact absurd ⟨v, x, hv, hvx⟩ hno
  · rcases hy with ⟨w, hw, hwy⟩ | ⟨-, rfl⟩
    · exact absurd ⟨w, y, hw, hwy⟩ hno
    · rfl

/-! ### The readers agree with the specification -/

theorem reads_float_iff (v : Param.Value) (_ : v.Wf) (x : ℚ) : ReadsFloat v x ↔ readFloat v = some x := by
  unfold ReadsFloat readFloat
  cases v <;> simp [Param.Value.asFloat, Param.Value.asInt, eq_comm]

theorem reads_int_iff (v : Param.Value) (_ : v.Wf) (i : Int) : ReadsInt v i ↔ v.asInt = some i := by
  unfold ReadsInt
  cases v <;> simp [Param.Value.asInt]

theorem reads_bool_iff (v : Param.Value) (_ : v.Wf) (i : Bool) : ReadsBool v i ↔ v.asBool = some i := by
  unfold ReadsBool
  cases v <;> simp [Param.Value.asBool]

theorem reads_string_iff (v : Param.Value) (_ : v.Wf) (i : String) : ReadsString v i ↔ v.asStr = some i := by
  unfold ReadsString
  cases v <;> simp [Param.Value.asStr]

theorem reads_strings_iff (v : Param.Value) (_ : v.Wf) (l : List String) :
    ReadsStrings v l ↔ stringListFrom v = some l := by
  unfold ReadsStrings stringListFrom
  have hs : ∀ vs : List Param.Value, vs.filterMap Param.Value.asStr = stringsIn vs := by
    intro vs
    induction vs with
    | nil => rfl
    | cons w vs ih => cases w <;> simp [List.filterMap_cons, stringsIn, Param.Value.asStr, ih]
  cases v <;> simp [Param.Value.asStr, Param.Value.asArray, eq_comm, hs]

theorem unit_is_iff (s : String) (u : SiUnit) (f : ℚ) : UnitIs s u f ↔ getUnitToSi s = some (f, u) := by
  constructor
  · intro h
    cases h with
    | _ h => fin_cases h <;> rfl
  · intro h
    have hm := lookup_some_mem h
    simp only [unitToSi, List.mem_cons, List.not_mem_nil, or_false, Prod.mk.injEq] at hm
    rcases hm with ⟨rfl, rfl, rfl⟩ | ⟨rfl, rfl, rfl⟩ | ⟨rfl, rfl, rfl⟩ | ⟨rfl, rfl, rfl⟩ | ⟨rfl, rfl, rfl⟩ |
      ⟨rfl, rfl, rfl⟩ | ⟨rfl, rfl, rfl⟩ | ⟨rfl, rfl, rfl⟩ | ⟨rfl, rfl, rfl⟩ | ⟨rfl, rfl, rfl⟩ | ⟨rfl, rfl, rfl⟩ |
      ⟨rfl, rfl, rfl⟩ | ⟨rfl, rfl, rfl⟩ | ⟨rfl, rfl, rfl⟩ | ⟨rfl, rfl, rfl⟩ | ⟨rfl, rfl, rfl⟩ | ⟨rfl, rfl, rfl⟩
    · exact .meter (by decide)
    · exact .meter (by decide)
    · exact .decimeter (by decide)
    · exact .decimeter (by decide)
    · exact .centimeter (by decide)
    · exact .centimeter (by decide)
    · exact .millimeter (by decide)
    · exact .millimeter (by decide)
    · exact .radian (by decide)
    · exact .radian (by decide)
    · exact .degree (by decide)
    · exact .degree (by decide)
    · exact .pixel (by decide)
    · exact .pixel (by decide)
    · exact .second (by decide)
    · exact .second (by decide)
    · exact .second (by decide)

theorem value_with_unit_iff (unit : SiUnit) (v : Param.Value) (x : ℚ) :
    ReadsUnit unit v x ↔ valueWithUnitFrom unit v = some x := by
  unfold ReadsUnit valueWithUnitFrom
  constructor
  · rintro ⟨name, w, y, f, rfl, hu, hw, rfl⟩
    rw [unit_is_iff] at hu
    simp only [Param.Value.asMap, hu, ne_eq, not_true_eq_false, if_false]
    rcases hw with rfl | ⟨i, rfl, rfl⟩ <;> simp [Param.Value.asFloat, Param.Value.asInt]
  · intro h
    cases v with
    | map es =>
      match es with
      | [] => simp [Param.Value.asMap] at h
      | _ :: _ :: _ => simp [Param.Value.asMap] at h
      | [(name, w)] =>
        simp only [Param.Value.asMap] at h
        cases hu : getUnitToSi name with
        | none => rw [hu] at h; simp at h
        | some fu =>
          obtain ⟨f, u⟩ := fu
          rw [hu] at h
          dsimp only at h
          by_cases hc : u = unit
          · subst hc
            rw [if_neg (not_not.2 rfl)] at h
            refine ⟨name, w, ?_⟩
            cases w with
            | float y =>
              simp only [Param.Value.asFloat, Option.some.injEq] at h
              exact ⟨y, f, rfl, (unit_is_iff _ _ _).2 hu, Or.inl rfl, h.symm⟩
            | int i =>
              simp only [Param.Value.asFloat, Param.Value.asInt, Option.some.injEq] at h
              exact ⟨i, f, rfl, (unit_is_iff _ _ _).2 hu, Or.inr ⟨i, rfl, rfl⟩, h.symm⟩
            | _ => simp [Param.Value.asFloat, Param.Value.asInt] at h
          · rw [if_pos hc] at h
            cases h
    | _ => simp [Param.Value.asMap] at h

theorem reads_unit_iff (unit : SiUnit) (v : Param.Value) (_ : v.Wf) (x : ℚ) :
    ReadsUnit unit v x ↔ valueWithUnitFrom unit v = some x := value_with_unit_iff unit v x

theorem names_type_iff (v : Param.Value) (wf : v.Wf) (s : String) :
    NamesType v s ↔ Param.getTypeStr v = some s := by
  unfold NamesType Param.getTypeStr
  cases v with
  | map es =>
    simp only [reduceCtorEq, Param.Value.map.injEq, exists_eq_left', false_or, Param.Value.asStr,
      Param.Value.asMap, Param.Value.getChild, Param.typeSelectorKey]
    rw [← lookup_iff_mem wf.nodup]
    cases es.lookup "type" with
    | none => simp
    | some t => cases t <;> simp
  | _ => simp [Param.Value.asStr, Param.Value.asMap, eq_comm]

theorem toTypeIdFrom_cases (name : String) (names : List String) (i : Int) :
    (name ∉ names ∧ TypeSelector.toTypeIdFrom name i names = TypeSelector.invalidTypeId) ∨
      ∃ k : Nat, names[k]? = some name ∧ (∀ j < k, names[j]? ≠ some name) ∧
        TypeSelector.toTypeIdFrom name i names = i + k := by
  induction names generalizing i with
  | nil => exact Or.inl ⟨List.not_mem_nil, rfl⟩
  | cons n ns ih =>
    unfold TypeSelector.toTypeIdFrom
    by_cases h : name = n
    · subst h
      rw [if_pos (beq_self_eq_true _)]
      exact Or.inr ⟨0, rfl, fun j hj => absurd hj (Nat.not_lt_zero j), by simp⟩
    · rw [if_neg (by rw [beq_iff_eq]; exact h)]
      rcases ih (i + 1) with ⟨hno, he⟩ | ⟨k, hk, hfirst, he⟩
      · exact Or.inl ⟨by simp [h, hno], he⟩
      · refine Or.inr ⟨k + 1, hk, ?_, by rw [he]; push_cast; omega⟩
        intro j hj
        cases j with
        | zero => simpa using fun hh => h hh.symm
        | succ j => simpa using hfirst j (by omega)

theorem fromName_iff (names : List String) (nd : names.Nodup) (name : String) (i : Int) :
    TypeSelector.fromName names name = some i ↔ ∃ k : Nat, names[k]? = some name ∧ i = k := by
  unfold TypeSelector.fromName TypeSelector.toTypeId
  rcases toTypeIdFrom_cases name names 0 with ⟨hno, he⟩ | ⟨k, hk, -, he⟩
  · rw [he]
    dsimp only
    rw [if_neg (by simp [TypeSelector.isValid, TypeSelector.invalidTypeId])]
    constructor
    · intro h
      cases h
    · rintro ⟨k, hk, -⟩
      exact absurd (List.mem_of_getElem? hk) hno
  · have hlt : k < names.length := by
      by_contra hge
      rw [List.getElem?_eq_none (by omega)] at hk
      cases hk
    rw [he]
    dsimp only
    rw [if_pos (by simp [TypeSelector.isValid, hlt])]
    constructor
    · intro h
      cases h
      exact ⟨k, hk, by simp⟩
    · rintro ⟨k', hk', rfl⟩
      have : k = k' := by
        have hlt' : k' < names.length := by
          by_contra hge
          rw [List.getElem?_eq_none (by omega)] at hk'
          cases hk'
        rw [List.getElem?_eq_getElem hlt] at hk
        rw [List.getElem?_eq_getElem hlt'] at hk'
        exact (List.Nodup.getElem_inj_iff nd).1 ((Option.some.inj hk).trans (Option.some.inj hk').symm)
      subst this
      simp

theorem reads_type_iff (names : List String) (nd : names.Nodup) (v : Param.Value) (wf : v.Wf) (i : Int) :
    ReadsType names v i ↔ TypeSelector.fromParams names v = some i := by
  unfold ReadsType TypeSelector.fromParams
  simp only [names_type_iff v wf]
  cases Param.getTypeStr v with
  | none => simp
  | some s =>
    dsimp only
    rw [fromName_iff names nd]
    constructor
    · rintro ⟨k, s', hs, hk, rfl⟩
      cases hs
      exact ⟨k, hk, rfl⟩
    · rintro ⟨k, hk, rfl⟩
      exact ⟨k, s, rfl, hk, rfl⟩

open Lean.Parser.Tactic in
/-- Proves that a member of a loaded config is read from the entry of its name. -/
macro "config_field " m:ident ppSpace g:ident " using " t:term : tactic =>
  `(tactic| (
    refine fieldFrom_fold $m $g _ _ _ _ _ (by assumption) $t (by decide) ?_ ?_
    · simp [$m:ident, ConfigMember.of]
    · unfold $m
      simp only [List.forall_mem_cons, List.not_mem_nil, false_implies, implies_true, and_true]
      repeat' apply And.intro
      all_goals
        intro v c
        simp only [ConfigMember.of, reduceCtorEq, if_true, if_false, String.reduceEq]
        split <;> simp_all))

theorem reads_circular_iff (v : Param.Value) (wf : v.Wf) (c : Cfg.CircularProjector) :
    ReadsCircular v c ↔ Cfg.CircularProjector.from v = some c := by
  have hall : ∀ es, (Param.Value.map es).Wf → ∃ c', Cfg.CircularProjector.from (.map es) = some c' ∧
      FieldFrom es "min_angle" (ReadsUnit .radians) 0 c'.minAngle ∧
      FieldFrom es "max_angle" (ReadsUnit .radians) 0 c'.maxAngle ∧
      FieldFrom es "num_cells" ReadsInt 0 c'.numCells := by
    intro es wf
    refine ⟨_, rfl, ?_, ?_, ?_⟩
    · config_field Cfg.CircularProjector.members Cfg.CircularProjector.minAngle using (reads_unit_iff .radians)
    · config_field Cfg.CircularProjector.members Cfg.CircularProjector.maxAngle using (reads_unit_iff .radians)
    · config_field Cfg.CircularProjector.members Cfg.CircularProjector.numCells using reads_int_iff
  constructor
  · rintro ⟨es, rfl, h1, h2, h3⟩
    obtain ⟨c', he, g1, g2, g3⟩ := hall es wf
    rw [he]
    cases c
    cases c'
    simp only [Option.some.injEq, Cfg.CircularProjector.mk.injEq]
    exact ⟨FieldFrom.unique wf (reads_unit_iff .radians) g1 h1,
      FieldFrom.unique wf (reads_unit_iff .radians) g2 h2, FieldFrom.unique wf reads_int_iff g3 h3⟩
  · intro h
    cases v with
    | map es =>
      obtain ⟨c', he, g⟩ := hall es wf
      rw [he] at h
      cases h
      exact ⟨es, rfl, g⟩
    | _ => cases h

end Wavemap
