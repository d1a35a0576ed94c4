import Verif.Spec.Params
import Verif.Spec.Config
import Mathlib.Data.String.Basic
import Mathlib.Data.List.Forall2

/-! # Lemmas on the conversions of parameters -/

namespace Wavemap

theorem lookup_cons_ite {κ β : Type} [DecidableEq κ] (e : κ × β) (es : List (κ × β)) (k : κ) :
    (e :: es).lookup k = if k = e.1 then some e.2 else es.lookup k := by
  obtain ⟨k', v⟩ := e
  rw [List.lookup_cons]
  by_cases h : k = k'
  · simp [h]
  · have hb : (k == k') = false := by simpa using h
    simp only [hb, h, if_false]

namespace Param

/-- Entries in strict key order. -/
def Ordered (es : List (String × Value)) : Prop := es.Pairwise (fun a b => a.1 < b.1)

theorem mem_emplace {k : String} {v : Value} {es : List (String × Value)} {e : String × Value}
    (h : e ∈ emplace k v es) : e = (k, v) ∨ e ∈ es := by
  induction es with
  | nil => simpa [emplace] using h
  | cons a es ih =>
    unfold emplace at h
    split at h
    · simpa using h
    · split at h
      · rcases List.mem_cons.mp h with rfl | h
        · simp
        · rcases ih h with h | h <;> simp [h]
      · exact Or.inr h

theorem Ordered.emplace {k : String} {v : Value} {es : List (String × Value)} (h : Ordered es) :
    Ordered (Param.emplace k v es) := by
  induction es with
  | nil => simp [Param.emplace, Ordered]
  | cons a es ih =>
    obtain ⟨ha, hes⟩ := List.pairwise_cons.mp h
    unfold Param.emplace
    split
    · rename_i hk
      refine List.pairwise_cons.mpr ⟨?_, h⟩
      intro b hb
      rcases List.mem_cons.mp hb with rfl | hb
      · exact hk
      · exact lt_trans hk (ha b hb)
    · split
      · rename_i hk
        refine List.pairwise_cons.mpr ⟨?_, ih hes⟩
        intro b hb
        rcases mem_emplace hb with rfl | hb
        · exact hk
        · exact ha b hb
      · exact h

theorem lookup_none_of_lt {k : String} {es : List (String × Value)} (h : ∀ e ∈ es, k < e.1) : es.lookup k = none := by
  rw [List.lookup_eq_none_iff]
  intro e he
  simpa using (h e he).ne

theorem lookup_emplace {k : String} {v : Value} {es : List (String × Value)} (h : Ordered es) (k' : String) :
    (Param.emplace k v es).lookup k' = (es.lookup k').or (if k' = k then some v else none) := by
  induction es with
  | nil =>
    by_cases hk : k' = k
    · simp [Param.emplace, hk]
    · simp [Param.emplace, lookup_cons_ite, hk]
  | cons a es ih =>
    obtain ⟨ha, hes⟩ := List.pairwise_cons.mp h
    unfold Param.emplace
    split
    · rename_i hk
      by_cases hkk : k' = k
      · subst hkk
        have : (a :: es).lookup k' = none := by
          apply lookup_none_of_lt
          intro e he
          rcases List.mem_cons.mp he with rfl | he
          · exact hk
          · exact lt_trans hk (ha e he)
        rw [this]
        simp
      · rw [lookup_cons_ite]
        simp [hkk]
    · rename_i hk1
      split
      · rename_i hk2
        rw [lookup_cons_ite, lookup_cons_ite, ih hes]
        by_cases hka : k' = a.1
        · simp [hka]
        · simp [hka]
      · rename_i hk2
        have hka : a.1 = k := le_antisymm (not_lt.mp hk1) (not_lt.mp hk2)
        by_cases hkk : k' = k
        · rw [lookup_cons_ite]
          simp [hkk, hka]
        · simp [hkk]

theorem Ordered.nodup {es : List (String × Value)} (h : Ordered es) : (es.map Prod.fst).Nodup := by
  rw [List.Nodup, List.pairwise_map]
  exact h.imp (fun hab => hab.ne)

/-- Ordered entries are determined by their lookups. -/
theorem Ordered.ext {es fs : List (String × Value)} (he : Ordered es) (hf : Ordered fs)
    (h : ∀ k, es.lookup k = fs.lookup k) : es = fs := by
  induction es generalizing fs with
  | nil =>
    cases fs with
    | nil => rfl
    | cons b fs => simpa [lookup_cons_ite] using h b.1
  | cons a es ih =>
    obtain ⟨ha, hes⟩ := List.pairwise_cons.mp he
    cases fs with
    | nil => simpa [lookup_cons_ite] using h a.1
    | cons b fs =>
      obtain ⟨hb, hfs⟩ := List.pairwise_cons.mp hf
      have hab : a.1 = b.1 := by
        rcases lt_trichotomy a.1 b.1 with hl | hl | hl
        · have := h a.1
          rw [lookup_none_of_lt (es := b :: fs)] at this
          · simp [lookup_cons_ite] at this
          · intro e he
            rcases List.mem_cons.mp he with rfl | he
            · exact hl
            · exact lt_trans hl (hb e he)
        · exact hl
        · have := h b.1
          rw [lookup_none_of_lt (es := a :: es)] at this
          · simp [lookup_cons_ite] at this
          · intro e he
            rcases List.mem_cons.mp he with rfl | he
            · exact hl
            · exact lt_trans hl (ha e he)
      have h2 : a.2 = b.2 := by
        have := h a.1
        rw [lookup_cons_ite, lookup_cons_ite] at this
        simpa [hab] using this
      have hab' : a = b := Prod.ext hab h2
      subst hab'
      congr 1
      apply ih hes hfs
      intro k
      have := h k
      rw [lookup_cons_ite, lookup_cons_ite] at this
      by_cases hk : k = a.1
      · subst hk
        rw [lookup_none_of_lt ha, lookup_none_of_lt hb]
      · simpa [hk] using this

/-- The entries of every map in a value are in strict key order. -/
inductive Value.Sorted : Value → Prop where
  | bool (b) : Sorted (.bool b)
  | int (i) : Sorted (.int i)
  | float (x) : Sorted (.float x)
  | str (s) : Sorted (.str s)
  | array (vs) (h : ∀ v ∈ vs, Sorted v) : Sorted (.array vs)
  | map (es) (ord : Ordered es) (h : ∀ e ∈ es, Sorted e.2) : Sorted (.map es)

theorem Value.Sorted.wf {v : Value} (h : v.Sorted) : v.Wf := by
  induction h with
  | bool b => exact .bool b
  | int i => exact .int i
  | float x => exact .float x
  | str s => exact .str s
  | array vs _ ih => exact .array vs ih
  | map es ord _ ih => exact .map es ord.nodup ih

/-- A sorted value is determined by what is found along all paths. -/
theorem Value.Sorted.ext {v w : Value} (hv : v.Sorted) (hw : w.Sorted)
    (h : ∀ p, (v.at p).map Value.seen = (w.at p).map Value.seen) : v = w := by
  induction hv generalizing w with
  | bool b => cases hw <;> simpa [Value.at, Value.seen] using h []
  | int b => cases hw <;> simpa [Value.at, Value.seen] using h []
  | float b => cases hw <;> simpa [Value.at, Value.seen] using h []
  | str b => cases hw <;> simpa [Value.at, Value.seen] using h []
  | array vs hvs ih =>
    cases hw with
    | array ws hws =>
      congr 1
      apply List.ext_getElem?
      intro i
      have hi : ∀ p, _ := fun p => h (.item i :: p)
      simp only [Value.at, Value.child] at hi
      cases h1 : vs[i]? with
      | none =>
        cases h2 : ws[i]? with
        | none => rfl
        | some w => simpa [h1, h2, Value.at] using hi []
      | some v =>
        cases h2 : ws[i]? with
        | none => simpa [h1, h2, Value.at] using hi []
        | some w =>
          simp only [h1, h2] at hi
          congr 1
          exact ih v (List.mem_of_getElem? h1) (hws w (List.mem_of_getElem? h2)) hi
    | _ => simpa [Value.at, Value.seen] using h []
  | map es oes hes ih =>
    cases hw with
    | map fs ofs hfs =>
      congr 1
      apply oes.ext ofs
      intro k
      have hi : ∀ p, _ := fun p => h (.key k :: p)
      simp only [Value.at, Value.child] at hi
      have hmem : ∀ {l : List (String × Value)} {v}, l.lookup k = some v → (k, v) ∈ l := by
        intro l v hl
        obtain ⟨l₁, l₂, rfl, _⟩ := List.lookup_eq_some_iff.mp hl
        simp
      cases h1 : es.lookup k with
      | none =>
        cases h2 : fs.lookup k with
        | none => rfl
        | some w => simpa [h1, h2, Value.at] using hi []
      | some v =>
        cases h2 : fs.lookup k with
        | none => simpa [h1, h2, Value.at] using hi []
        | some w =>
          simp only [h1, h2] at hi
          congr 1
          exact ih (k, v) (hmem h1) (hfs (k, w) (hmem h2)) hi
    | _ => simpa [Value.at, Value.seen] using h []

end Param

/-! ## ROS -/

theorem XmlRpc.toParamValues_eq (vs : List XmlRpc) : XmlRpc.toParamValues vs = vs.map XmlRpc.toParamValue := by
  induction vs with
  | nil => simp [XmlRpc.toParamValues]
  | cons v vs ih => simp [XmlRpc.toParamValues, ih]

theorem XmlRpc.toParamEntries_ordered (es : List (String × XmlRpc)) (acc : List (String × Param.Value))
    (h : Param.Ordered acc) : Param.Ordered (XmlRpc.toParamEntries es acc) := by
  induction es generalizing acc with
  | nil => simpa [XmlRpc.toParamEntries] using h
  | cons e es ih =>
    obtain ⟨k, v⟩ := e
    rw [XmlRpc.toParamEntries]
    exact ih _ h.emplace

theorem XmlRpc.lookup_toParamEntries (es : List (String × XmlRpc)) (acc : List (String × Param.Value))
    (h : Param.Ordered acc) (k : String) :
    (XmlRpc.toParamEntries es acc).lookup k = (acc.lookup k).or ((es.lookup k).map XmlRpc.toParamValue) := by
  induction es generalizing acc with
  | nil => simp [XmlRpc.toParamEntries]
  | cons e es ih =>
    obtain ⟨k', v⟩ := e
    rw [XmlRpc.toParamEntries, ih _ h.emplace, Param.lookup_emplace h, Option.or_assoc]
    congr 1
    rw [lookup_cons_ite]
    by_cases hk : k = k' <;> simp [hk]

theorem XmlRpc.toParamEntries_all {P : Param.Value → Prop} (es : List (String × XmlRpc))
    (acc : List (String × Param.Value)) (hes : ∀ e ∈ es, P e.2.toParamValue) (hacc : ∀ e ∈ acc, P e.2) :
    ∀ e ∈ XmlRpc.toParamEntries es acc, P e.2 := by
  induction es generalizing acc with
  | nil => simpa [XmlRpc.toParamEntries] using hacc
  | cons e es ih =>
    obtain ⟨k, v⟩ := e
    rw [XmlRpc.toParamEntries]
    refine ih _ (fun e he => hes e (by simp [he])) ?_
    intro f hf
    rcases Param.mem_emplace hf with rfl | hf
    · exact hes (k, v) (by simp)
    · exact hacc f hf

theorem XmlRpc.toParamValue_sorted (x : XmlRpc) : x.toParamValue.Sorted := by
  match x with
  | .bool b => exact .bool b
  | .int b => exact .int b
  | .double b => exact .float b
  | .str b => exact .str b
  | .array vs =>
    rw [XmlRpc.toParamValue, XmlRpc.toParamValues_eq]
    refine .array _ ?_
    intro v hv
    obtain ⟨w, hw, rfl⟩ := List.mem_map.mp hv
    exact XmlRpc.toParamValue_sorted w
  | .struct es =>
    rw [XmlRpc.toParamValue]
    refine .map _ (XmlRpc.toParamEntries_ordered es [] List.Pairwise.nil) ?_
    refine XmlRpc.toParamEntries_all es [] ?_ (by simp)
    intro e he
    exact XmlRpc.toParamValue_sorted e.2
  | .invalid => rw [XmlRpc.toParamValue]; exact .array [] (by simp)
  | .dateTime => rw [XmlRpc.toParamValue]; exact .array [] (by simp)
  | .base64 => rw [XmlRpc.toParamValue]; exact .array [] (by simp)
termination_by sizeOf x
decreasing_by
  · have := List.sizeOf_lt_of_mem hw
    simp only [XmlRpc.array.sizeOf_spec]
    omega
  · have := List.sizeOf_lt_of_mem he
    have : sizeOf e = 1 + sizeOf e.1 + sizeOf e.2 := by cases e; rfl
    simp only [XmlRpc.struct.sizeOf_spec]
    omega

theorem XmlRpc.toParamValue_seen (x : XmlRpc) : x.toParamValue.seen = x.seen := by
  cases x <;> rw [XmlRpc.toParamValue] <;> rfl

theorem XmlRpc.toParamValue_child (x : XmlRpc) (s : ParamStep) :
    x.toParamValue.child s = (x.child s).map XmlRpc.toParamValue := by
  cases x <;> cases s <;> rw [XmlRpc.toParamValue] <;>
    simp [Param.Value.child, XmlRpc.child, XmlRpc.toParamValues_eq,
      XmlRpc.lookup_toParamEntries _ _ (List.Pairwise.nil)]

theorem XmlRpc.toParamValue_at (x : XmlRpc) (p : List ParamStep) :
    x.toParamValue.at p = (x.at p).map XmlRpc.toParamValue := by
  induction p generalizing x with
  | nil => simp [Param.Value.at, XmlRpc.at]
  | cons s p ih =>
    rw [Param.Value.at, XmlRpc.at, XmlRpc.toParamValue_child]
    cases x.child s with
    | none => rfl
    | some w => exact ih w

/-! ## Python -/

theorem cStr_eq {s : String} (h : NoNulIn s) : cStr s = s := by
  have : s.toList.takeWhile (fun c => c ≠ Char.ofNat 0) = s.toList := by
    have aux : ∀ l : List Char, Char.ofNat 0 ∉ l → l.takeWhile (fun c => c ≠ Char.ofNat 0) = l := by
      intro l
      induction l with
      | nil => intro _; rfl
      | cons c l ih =>
        intro hl
        rw [List.mem_cons, not_or] at hl
        rw [List.takeWhile_cons, if_pos (by simpa using fun hc => hl.1 hc.symm), ih hl.2]
    exact aux _ h
  unfold cStr
  rw [this]
  simp

theorem Py.toParamValues_iff (vs : List Py) (ws : List Param.Value) :
    Py.toParamValues vs = some ws ↔ List.Forall₂ (fun v w => Py.toParamValue v = some w) vs ws := by
  induction vs generalizing ws with
  | nil =>
    rw [Py.toParamValues]
    cases ws <;> simp
  | cons v vs ih =>
    rw [Py.toParamValues]
    cases h1 : v.toParamValue with
    | none =>
      simp only [reduceCtorEq, false_iff]
      intro h
      cases h with
      | cons a _ => rw [h1] at a; cases a
    | some w =>
      cases h2 : Py.toParamValues vs with
      | none =>
        simp only [reduceCtorEq, false_iff]
        intro h
        cases h with
        | cons _ b => rw [← ih, h2] at b; cases b
      | some ws' =>
        cases ws with
        | nil => simp
        | cons w₂ ws₂ =>
          simp only [Option.some.injEq, List.cons.injEq, List.forall₂_cons, h1, ← ih, h2]

theorem Py.toParamEntries_ordered (es : List (PyKey × Py)) (acc fs : List (String × Param.Value))
    (h : Param.Ordered acc) (he : Py.toParamEntries es acc = some fs) : Param.Ordered fs := by
  induction es generalizing acc with
  | nil =>
    rw [Py.toParamEntries] at he
    cases he
    exact h
  | cons e es ih =>
    obtain ⟨k, v⟩ := e
    cases k with
    | str k =>
      rw [Py.toParamEntries] at he
      cases h1 : v.toParamValue with
      | none => simp [h1] at he
      | some w =>
        simp only [h1] at he
        exact ih _ h.emplace he
    | other k =>
      rw [Py.toParamEntries] at he
      exact ih _ h he

theorem Py.toParamEntries_all {P : Param.Value → Prop} (es : List (PyKey × Py)) (acc fs : List (String × Param.Value))
    (hes : ∀ e ∈ es, ∀ w, e.2.toParamValue = some w → P w) (hacc : ∀ e ∈ acc, P e.2)
    (he : Py.toParamEntries es acc = some fs) : ∀ e ∈ fs, P e.2 := by
  induction es generalizing acc with
  | nil =>
    rw [Py.toParamEntries] at he
    cases he
    exact hacc
  | cons e es ih =>
    obtain ⟨k, v⟩ := e
    cases k with
    | str k =>
      rw [Py.toParamEntries] at he
      cases h1 : v.toParamValue with
      | none => simp [h1] at he
      | some w =>
        simp only [h1] at he
        refine ih _ (fun e he => hes e (by simp [he])) ?_ he
        intro f hf
        rcases Param.mem_emplace hf with rfl | hf
        · exact hes (.str k, v) (by simp) w h1
        · exact hacc f hf
    | other k =>
      rw [Py.toParamEntries] at he
      exact ih _ (fun e he => hes e (by simp [he])) hacc he

theorem Py.toParamEntries_lookup (es : List (PyKey × Py)) (acc fs : List (String × Param.Value))
    (h : Param.Ordered acc) (nul : ∀ k v, (PyKey.str k, v) ∈ es → NoNulIn k)
    (he : Py.toParamEntries es acc = some fs) (k : String) :
    (fs.lookup k) = (acc.lookup k).or ((es.lookup (.str k)).bind Py.toParamValue) ∧
      (∀ v, es.lookup (.str k) = some v → ∃ w, v.toParamValue = some w) := by
  induction es generalizing acc with
  | nil =>
    rw [Py.toParamEntries] at he
    cases he
    simp
  | cons e es ih =>
    obtain ⟨k', v⟩ := e
    cases k' with
    | str k' =>
      rw [Py.toParamEntries] at he
      cases h1 : v.toParamValue with
      | none => simp [h1] at he
      | some w =>
        simp only [h1] at he
        rw [cStr_eq (nul k' v (by simp))] at he
        obtain ⟨i1, i2⟩ := ih _ h.emplace (fun k v hk => nul k v (by simp [hk])) he
        rw [i1, Param.lookup_emplace h, Option.or_assoc, lookup_cons_ite]
        by_cases hk : k = k'
        · subst hk
          simp [h1]
        · have : ¬PyKey.str k = PyKey.str k' := by simpa using hk
          simp only [this, hk, if_false]
          exact ⟨by simp, i2⟩
    | other n =>
      rw [Py.toParamEntries] at he
      obtain ⟨i1, i2⟩ := ih _ h (fun k v hk => nul k v (by simp [hk])) he
      rw [lookup_cons_ite, if_neg (by simp)]
      exact ⟨i1, i2⟩

theorem Py.toParamValue_sorted (y : Py) (v : Param.Value) (h : y.toParamValue = some v) : v.Sorted := by
  match y with
  | .bool b => rw [Py.toParamValue] at h; cases h; exact .bool b
  | .int b =>
    rw [Py.toParamValue] at h
    split at h
    · cases h; exact .int _
    · cases h
  | .float b => rw [Py.toParamValue] at h; cases h; exact .float b
  | .str b => rw [Py.toParamValue] at h; cases h; exact .str _
  | .list vs =>
    rw [Py.toParamValue] at h
    cases hv : Py.toParamValues vs with
    | none => simp [hv] at h
    | some ws =>
      simp only [hv] at h
      cases h
      refine .array _ ?_
      intro w hw
      rw [Py.toParamValues_iff] at hv
      obtain ⟨i, hi, rfl⟩ := List.mem_iff_getElem.mp hw
      have hlen := hv.length_eq
      have := (List.forall₂_iff_get.mp hv).2 i (by omega) hi
      exact Py.toParamValue_sorted vs[i] _ this
  | .dict es =>
    rw [Py.toParamValue] at h
    cases hv : Py.toParamEntries es [] with
    | none => simp [hv] at h
    | some fs =>
      simp only [hv] at h
      cases h
      refine .map _ (Py.toParamEntries_ordered es [] fs List.Pairwise.nil hv) ?_
      refine Py.toParamEntries_all es [] fs ?_ (by simp) hv
      intro e he w hw
      exact Py.toParamValue_sorted e.2 w hw
  | .other => rw [Py.toParamValue] at h; cases h; exact .array [] (by simp)
termination_by sizeOf y
decreasing_by
  · have := List.sizeOf_lt_of_mem (List.getElem_mem (l := vs) (n := i) (by omega))
    simp only [Py.list.sizeOf_spec]
    omega
  · have := List.sizeOf_lt_of_mem he
    have : sizeOf e = 1 + sizeOf e.1 + sizeOf e.2 := by cases e; rfl
    simp only [Py.dict.sizeOf_spec]
    omega

theorem Py.NoNul.child {y w : Py} {s : ParamStep} (h : y.NoNul) (hc : y.child s = some w) : w.NoNul where
  strings p t ht := h.strings (s :: p) t (by rw [Py.at, hc]; exact ht)
  keys p es k v ht := h.keys (s :: p) es k v (by rw [Py.at, hc]; exact ht)

/-- One step into a converted Python object. -/
theorem Py.toParamValue_child {y : Py} {v : Param.Value} (nul : y.NoNul) (h : y.toParamValue = some v)
    (s : ParamStep) :
    (y.child s = none ∧ v.child s = none) ∨
      ∃ y' v', y.child s = some y' ∧ v.child s = some v' ∧ y'.toParamValue = some v' := by
  match y with
  | .bool b => rw [Py.toParamValue] at h; cases h; exact .inl ⟨rfl, rfl⟩
  | .int b =>
    rw [Py.toParamValue] at h
    split at h
    · cases h; exact .inl ⟨rfl, rfl⟩
    · cases h
  | .float b => rw [Py.toParamValue] at h; cases h; exact .inl ⟨rfl, rfl⟩
  | .str b => rw [Py.toParamValue] at h; cases h; exact .inl ⟨rfl, rfl⟩
  | .other =>
    rw [Py.toParamValue] at h
    cases h
    cases s with
    | key k => exact .inl ⟨rfl, rfl⟩
    | item i => exact .inl ⟨rfl, by simp [Param.Value.child]⟩
  | .list vs =>
    rw [Py.toParamValue] at h
    cases hv : Py.toParamValues vs with
    | none => simp [hv] at h
    | some ws =>
      simp only [hv] at h
      cases h
      cases s with
      | key k => exact .inl ⟨rfl, rfl⟩
      | item i =>
        rw [Py.toParamValues_iff] at hv
        have hlen := hv.length_eq
        simp only [Py.child, Param.Value.child]
        by_cases hi : i < vs.length
        · right
          have := (List.forall₂_iff_get.mp hv).2 i hi (by omega)
          exact ⟨vs[i], ws[i], by simp [hi], by simp [hlen ▸ hi], this⟩
        · left
          exact ⟨by simpa using hi, by simpa [← hlen] using hi⟩
  | .dict es =>
    rw [Py.toParamValue] at h
    cases hv : Py.toParamEntries es [] with
    | none => simp [hv] at h
    | some fs =>
      simp only [hv] at h
      cases h
      cases s with
      | item k => exact .inl ⟨rfl, rfl⟩
      | key k =>
        simp only [Py.child, Param.Value.child]
        obtain ⟨l1, l2⟩ := Py.toParamEntries_lookup es [] fs List.Pairwise.nil
          (fun k v hk => nul.keys [] es k v rfl hk) hv k
        cases hl : es.lookup (.str k) with
        | none => exact .inl ⟨rfl, by simpa [hl] using l1⟩
        | some w =>
          obtain ⟨u, hu⟩ := l2 w hl
          exact .inr ⟨w, u, rfl, by simpa [hl, hu] using l1, hu⟩

theorem pyInt_eq_some {i j : Int} : pyInt i = some j ↔ j = i ∧ -2 ^ 31 ≤ i ∧ i < 2 ^ 31 := by
  unfold pyInt
  split
  · simp_all [eq_comm]
  · simp_all

theorem Py.toParamValue_seen {y : Py} {v : Param.Value} (nul : y.NoNul) (h : y.toParamValue = some v) :
    v.seen = y.seen := by
  cases y with
  | bool b => rw [Py.toParamValue] at h; cases h; rfl
  | int b =>
    rw [Py.toParamValue] at h
    split at h
    · rename_i j hj
      cases h
      rw [pyInt_eq_some] at hj
      rw [hj.1]
      rfl
    · cases h
  | float b => rw [Py.toParamValue] at h; cases h; rfl
  | str b =>
    rw [Py.toParamValue] at h
    cases h
    rw [cStr_eq (nul.strings [] b rfl)]
    rfl
  | list vs =>
    rw [Py.toParamValue] at h
    split at h <;> cases h
    rfl
  | dict es =>
    rw [Py.toParamValue] at h
    split at h <;> cases h
    rfl
  | other => rw [Py.toParamValue] at h; cases h; rfl

theorem Py.toParamValue_at {y : Py} {v : Param.Value} (nul : y.NoNul) (h : y.toParamValue = some v)
    (p : List ParamStep) : (v.at p).map Param.Value.seen = (y.at p).map Py.seen := by
  induction p generalizing y v with
  | nil => simp [Param.Value.at, Py.at, Py.toParamValue_seen nul h]
  | cons s p ih =>
    rw [Param.Value.at, Py.at]
    rcases Py.toParamValue_child nul h s with ⟨h1, h2⟩ | ⟨y', v', h1, h2, h3⟩
    · rw [h1, h2]; rfl
    · rw [h1, h2]
      exact ih (nul.child h1) h3

/-- If a converted object exists, the whole numbers in it fit. -/
theorem Py.fits_of_toParamValue {y : Py} {v : Param.Value} (nul : y.NoNul) (h : y.toParamValue = some v) : y.Fits := by
  intro p i hp
  induction p generalizing y v with
  | nil =>
    simp only [Py.at, Option.some.injEq] at hp
    subst hp
    rw [Py.toParamValue] at h
    split at h
    · rename_i j hj
      exact (pyInt_eq_some.mp hj).2
    · cases h
  | cons s p ih =>
    rw [Py.at] at hp
    rcases Py.toParamValue_child nul h s with ⟨h1, h2⟩ | ⟨y', v', h1, h2, h3⟩
    · rw [h1] at hp; cases hp
    · rw [h1] at hp
      exact ih (nul.child h1) h3 hp

theorem Py.toParamValues_some (vs : List Py) (h : ∀ v ∈ vs, ∃ w, Py.toParamValue v = some w) :
    ∃ ws, Py.toParamValues vs = some ws := by
  induction vs with
  | nil => exact ⟨[], by rw [Py.toParamValues]⟩
  | cons v vs ih =>
    obtain ⟨w, hw⟩ := h v (by simp)
    obtain ⟨ws, hws⟩ := ih (fun v hv => h v (by simp [hv]))
    exact ⟨w :: ws, by rw [Py.toParamValues, hw, hws]⟩

theorem Py.toParamEntries_some (es : List (PyKey × Py)) (acc : List (String × Param.Value))
    (h : ∀ k v, (PyKey.str k, v) ∈ es → ∃ w, Py.toParamValue v = some w) :
    ∃ fs, Py.toParamEntries es acc = some fs := by
  induction es generalizing acc with
  | nil => exact ⟨acc, by rw [Py.toParamEntries]⟩
  | cons e es ih =>
    obtain ⟨k, v⟩ := e
    cases k with
    | str k =>
      obtain ⟨w, hw⟩ := h k v (by simp)
      obtain ⟨fs, hfs⟩ := ih (Param.emplace (cStr k) w acc) (fun k v hk => h k v (by simp [hk]))
      exact ⟨fs, by rw [Py.toParamEntries, hw]; exact hfs⟩
    | other n =>
      obtain ⟨fs, hfs⟩ := ih acc (fun k v hk => h k v (by simp [hk]))
      exact ⟨fs, by rw [Py.toParamEntries]; exact hfs⟩

theorem lookup_of_mem_nodup {κ β : Type} [DecidableEq κ] {es : List (κ × β)} (h : (es.map Prod.fst).Nodup) {k : κ}
    {v : β} (hm : (k, v) ∈ es) : es.lookup k = some v := by
  induction es with
  | nil => simp at hm
  | cons e es ih =>
    rw [List.map_cons, List.nodup_cons] at h
    rw [lookup_cons_ite]
    rcases List.mem_cons.mp hm with rfl | hm
    · simp
    · have : k ≠ e.1 := by
        rintro rfl
        exact h.1 (List.mem_map.mpr ⟨_, hm, rfl⟩)
      rw [if_neg this]
      exact ih h.2 hm

theorem Py.Fits.toParamValue {y : Py} (d : y.Distinct) (h : y.Fits) : ∃ v, y.toParamValue = some v := by
  induction d with
  | bool b => exact ⟨.bool b, by rw [Py.toParamValue]⟩
  | int i => exact ⟨.int i, by rw [Py.toParamValue, pyInt_eq_some.mpr ⟨rfl, h [] i rfl⟩]⟩
  | float x => exact ⟨.float x, by rw [Py.toParamValue]⟩
  | str s => exact ⟨.str (cStr s), by rw [Py.toParamValue]⟩
  | list vs _ ih =>
    obtain ⟨ws, hws⟩ := Py.toParamValues_some vs (by
      intro v hv
      apply ih v hv
      intro p i hp
      obtain ⟨n, hn, rfl⟩ := List.mem_iff_getElem.mp hv
      exact h (.item n :: p) i (by rw [Py.at]; simp only [Py.child, List.getElem?_eq_getElem hn]; exact hp))
    exact ⟨.array ws, by rw [Py.toParamValue, hws]⟩
  | dict es nd _ ih =>
    obtain ⟨fs, hfs⟩ := Py.toParamEntries_some es [] (by
      intro k v hv
      apply ih _ hv
      intro p i hp
      exact h (.key k :: p) i (by rw [Py.at]; simp only [Py.child, lookup_of_mem_nodup nd hv]; exact hp))
    exact ⟨.map fs, by rw [Py.toParamValue, hfs]⟩
  | other => exact ⟨.array [], by rw [Py.toParamValue]⟩

end Wavemap
