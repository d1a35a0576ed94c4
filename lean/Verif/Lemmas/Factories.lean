import Verif.Lemmas.Config
import Verif.Spec.Factories

/-!
# Lemmas on the factories (C63)
-/

namespace Wavemap

theorem namesType_unique {v : Param.Value} (wf : v.Wf) {s t : String} (hs : NamesType v s) (ht : NamesType v t) :
    s = t := by
  rw [names_type_iff v wf] at hs ht
  rw [hs] at ht
  exact Option.some.inj ht

/-- The selected type id: the one that was read, or else the default. -/
def selectedType (read dflt : Option Int) : Option Int :=
  match read with
  | some t => some t
  | none => dflt

theorem chooses_iff (names : List String) (nd : names.Nodup) (Source : Param.Value → Prop) (o : Option Param.Value)
    (ho : ∀ w, Source w ↔ o = some w) (wf : ∀ w, Source w → w.Wf) (dflt : Option Int) (name : String) :
    Chooses names Source dflt name ↔
      ∃ k : Nat, names[k]? = some name ∧ selectedType (o.bind (TypeSelector.fromParams names)) dflt = some (k : Int) := by
  unfold Chooses selectedType
  cases h : o.bind (TypeSelector.fromParams names) with
  | some t =>
    obtain ⟨w, hw, hr⟩ := Option.bind_eq_some_iff.1 h
    have wfw := wf w ((ho w).2 hw)
    obtain ⟨k, s, hs, hk, rfl⟩ := (reads_type_iff names nd w wfw t).2 hr
    constructor
    · rintro (⟨hm, w', hw', hn⟩ | ⟨hno, -⟩)
      · have : w' = w := by
          have := (ho w').1 hw'
          rw [hw] at this
          exact (Option.some.inj this).symm
        subst this
        have hsn := namesType_unique wfw hs hn
        subst hsn
        exact ⟨k, hk, rfl⟩
      · exact absurd ⟨w, (ho w).2 hw, hs⟩ (hno s (List.mem_of_getElem? hk))
    · rintro ⟨k', hk', he⟩
      have : k = k' := by simpa using he
      subst this
      rw [hk] at hk'
      cases hk'
      exact Or.inl ⟨List.mem_of_getElem? hk, w, (ho w).2 hw, hs⟩
  | none =>
    have hno : ∀ s ∈ names, ¬∃ w, Source w ∧ NamesType w s := by
      rintro s hm ⟨w, hw, hs⟩
      obtain ⟨k, hk⟩ := List.mem_iff_getElem?.1 hm
      have h1 := (reads_type_iff names nd w (wf w hw) k).1 ⟨k, s, hs, hk, rfl⟩
      rw [(ho w).1 hw] at h
      rw [Option.bind_some, h1] at h
      cases h
    constructor
    · rintro (⟨hm, hn⟩ | ⟨-, k, hd, hk⟩)
      · exact absurd hn (hno _ hm)
      · exact ⟨k, hk, hd⟩
    · rintro ⟨k, hk, hd⟩
      exact Or.inr ⟨hno, k, hd, hk⟩

/-- For a name at a known position. -/
theorem chooses_at (names : List String) (nd : names.Nodup) (Source : Param.Value → Prop) (o : Option Param.Value)
    (ho : ∀ w, Source w ↔ o = some w) (wf : ∀ w, Source w → w.Wf) (dflt : Option Int) (k : Nat) (name : String)
    (hk : names[k]? = some name) :
    Chooses names Source dflt name ↔
      selectedType (o.bind (TypeSelector.fromParams names)) dflt = some (k : Int) := by
  rw [chooses_iff names nd Source o ho wf]
  constructor
  · rintro ⟨k', hk', h⟩
    obtain ⟨h1, e1⟩ := List.getElem?_eq_some_iff.1 hk
    obtain ⟨h2, e2⟩ := List.getElem?_eq_some_iff.1 hk'
    have := (List.Nodup.getElem_inj_iff nd).1 (e1.trans e2.symm)
    rw [this]
    exact h
  · exact fun h => ⟨k, hk, h⟩

theorem entry_iff (params : Param.Value) (wf : params.Wf) (key : String) (w : Param.Value) :
    params.Entry key w ↔ params.getChild key = some w := by
  unfold Param.Value.Entry
  cases params with
  | map es =>
    simp only [Param.Value.getChild, Param.Value.asMap, Param.Value.map.injEq]
    rw [lookup_iff_mem wf.nodup]
    constructor
    · rintro ⟨es', rfl, h⟩
      exact h
    · exact fun h => ⟨es, rfl, h⟩
  | _ => simp [Param.Value.getChild, Param.Value.asMap]

theorem entry_wf {params : Param.Value} (wf : params.Wf) {key : String} {w : Param.Value} (h : params.Entry key w) :
    w.Wf := by
  obtain ⟨es, rfl, h⟩ := h
  exact wf.children _ h

theorem fromSub_bind (names : List String) (params : Param.Value) (key : String) :
    TypeSelector.fromSub names params key = (params.getChild key).bind (TypeSelector.fromParams names) := by
  unfold TypeSelector.fromSub
  cases params.getChild key <;> rfl

theorem configFromSub_iff {C : Type} (dflt : C) (members : List (ConfigMember C)) (params : Param.Value) (wf : params.Wf)
    (key : String) (c : C) : configFromSub dflt members params key = some c ↔
      ∃ w, params.Entry key w ∧ configFrom dflt members w = some c := by
  unfold configFromSub
  simp only [entry_iff params wf]
  cases params.getChild key <;> simp

/-! ### Outcomes -/

theorem factoryDoes_null {α : Type} {R U : α → Prop} (h : ∀ m, ¬R m) : FactoryDoes R U (.null : Made α) :=
  ⟨fun m => by simp [h m], by simp [h], by simp [h]⟩

theorem factoryDoes_from {α C : Type} {R U : α → Prop} (isValid : C → Bool) (o : Option C) (f : C → α)
    (hR : ∀ m, R m ↔ ∃ c, o = some c ∧ m = f c) (hU : ∀ c, U (f c) ↔ isValid c = true) :
    FactoryDoes R U ((fromConfig isValid o).map f) := by
  cases o with
  | none => exact factoryDoes_null fun m => by simp [hR]
  | some c =>
    have hR' : ∀ m, R m ↔ m = f c := fun m => by
      rw [hR]
      constructor
      · rintro ⟨c', h, rfl⟩
        cases h
        rfl
      · exact fun h => ⟨c, rfl, h⟩
    simp only [fromConfig, constructed]
    by_cases hv : isValid c = true
    · rw [if_pos hv]
      refine ⟨fun m => ?_, ?_, ?_⟩
      · simp only [Made.map, Made.made.injEq, hR']
        constructor
        · rintro rfl
          exact ⟨rfl, (hU c).2 hv⟩
        · exact fun h => h.1.symm
      · simp only [Made.map, reduceCtorEq, false_iff, hR']
        rintro ⟨m, rfl, h⟩
        exact h ((hU c).2 hv)
      · simp only [Made.map, reduceCtorEq, false_iff, not_not, hR']
        exact ⟨f c, rfl⟩
    · rw [if_neg hv]
      refine ⟨fun m => ?_, ?_, ?_⟩
      · simp only [Made.map, reduceCtorEq, false_iff, hR']
        rintro ⟨rfl, h⟩
        exact hv ((hU c).1 h)
      · simp only [Made.map, true_iff, hR']
        exact ⟨f c, rfl, fun h => hv ((hU c).1 h)⟩
      · simp only [Made.map, reduceCtorEq, false_iff, not_not, hR']
        exact ⟨f c, rfl⟩

theorem operationFrom_eq {C : Type} (isValid : C → Bool) (map : Option MapObject) (o : Option C) :
    operationFrom isValid map o = fromConfig (fun c => map.isSome && isValid c) o := by
  cases o <;> rfl

theorem fromConfig_valid {α C : Type} (isValid : C → Bool) (c : C) (f : C → α) (h : isValid c = true) :
    (fromConfig isValid (some c)).map f = .made (f c) := by
  simp only [fromConfig, constructed]
  rw [if_pos h]
  rfl

theorem fromConfig_invalid {α C : Type} (isValid : C → Bool) (c : C) (f : C → α) (h : isValid c = false) :
    (fromConfig isValid (some c)).map f = .abort := by
  simp only [fromConfig, constructed]
  rw [if_neg (by simp [h])]
  rfl

end Wavemap
