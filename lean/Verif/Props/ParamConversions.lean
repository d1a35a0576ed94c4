import Verif.Lemmas.ParamConversions
import Verif.Props.Config

/-!
# C76: configurations from ROS parameters and from Python

The program's parameters made from ROS parameters or from Python objects contain what those contain. What a nested
value contains (`at`, `seen`) is specified in `Verif/Spec/Params.lean`.
-/

namespace Wavemap

/-- Along every path the program's parameter made from a ROS parameter contains what the ROS parameter contains:
the same booleans, numbers and texts, and lists and maps at the same places with the same elements and names, no
more and no less. -/
theorem C76_ros (x : XmlRpc) (p : List ParamStep) :
    ((x.toParamValue).at p).map Param.Value.seen = (x.at p).map XmlRpc.seen := by
  rw [XmlRpc.toParamValue_at, Option.map_map]
  congr 1
  funext w
  exact XmlRpc.toParamValue_seen w

/-- The same for Python objects whose texts contain no NUL characters. -/
theorem C76_python_partial (y : Py) (nul : y.NoNul) (v : Param.Value) (h : y.toParamValue = some v)
    (p : List ParamStep) : (v.at p).map Param.Value.seen = (y.at p).map Py.seen :=
  Py.toParamValue_at nul h p

/-- The conversion of a Python object throws exactly if some whole number in it, at a place that can be reached by
names and positions, does not fit into 32 bits. -/
theorem C76_python_throws_partial (y : Py) (d : y.Distinct) (nul : y.NoNul) :
    y.toParamValue = none ↔ ¬y.Fits := by
  constructor
  · intro h hf
    obtain ⟨v, hv⟩ := Py.Fits.toParamValue d hf
    rw [h] at hv
    cases hv
  · intro h
    cases hv : y.toParamValue with
    | none => rfl
    | some v => exact absurd (Py.fits_of_toParamValue nul hv) h

/-- A configuration written in Python and one on the ROS parameter server that contain the same along every path
give the same parameter, whatever the order of the entries of their dictionaries. All configs and factories read
only this parameter. -/
theorem C76_same_partial (x : XmlRpc) (y : Py) (d : y.Distinct) (nul : y.NoNul) (f : y.Fits)
    (same : ∀ p, (x.at p).map XmlRpc.seen = (y.at p).map Py.seen) : y.toParamValue = some x.toParamValue := by
  obtain ⟨v, hv⟩ := Py.Fits.toParamValue d f
  rw [hv, (Py.toParamValue_sorted y v hv).ext (XmlRpc.toParamValue_sorted x) (by
    intro p
    rw [Py.toParamValue_at nul hv, C76_ros, same])]

/-- Parameters from either source are well-formed (the keys of every map in them are distinct), which the theorems
on configs (C50), values with units (C51) and type names (C52) assume. -/
theorem C76_well_formed (x : XmlRpc) (found : Option XmlRpc) (y : Py) (v : Param.Value)
    (h : y.toParamValue = some v) : x.toParamValue.Wf ∧ (rosParamValue found).Wf ∧ v.Wf := by
  refine ⟨(XmlRpc.toParamValue_sorted x).wf, ?_, (Py.toParamValue_sorted y v h).wf⟩
  cases found with
  | none => exact .map [] (by simp) (by simp)
  | some x => exact (XmlRpc.toParamValue_sorted x).wf

/-- A namespace that is missing on the parameter server, and one that does not hold a map, are read as a map without
entries; one that holds a map is read as that map. -/
theorem C76_ros_namespaces (x : XmlRpc) (es : List (String × XmlRpc)) :
    rosParamValue none = .map [] ∧ rosParamMap none = [] ∧ rosParamArray none = [] ∧
    ((∀ es, x ≠ .struct es) → rosParamMap (some x) = []) ∧ ((∀ vs, x ≠ .array vs) → rosParamArray (some x) = []) ∧
    (.map (rosParamMap (some (.struct es))) = (XmlRpc.struct es).toParamValue) ∧
    (∀ vs, .array (rosParamArray (some (.array vs))) = (XmlRpc.array vs).toParamValue) := by
  refine ⟨rfl, rfl, rfl, ?_, ?_, ?_, ?_⟩
  · intro h
    cases x <;> first | rfl | exact absurd rfl (h _)
  · intro h
    cases x <;> first | rfl | exact absurd rfl (h _)
  · rw [XmlRpc.toParamValue]
    rfl
  · intro vs
    rw [XmlRpc.toParamValue]
    rfl

/-- Values of unsupported types, which the messages say are ignored, leave every setting that is a number, a
boolean, a text, a type name or a value with a unit at its default: none of them can be read from what the
conversion makes of such a value. -/
theorem C76_unsupported_ignored (x : XmlRpc) (hx : x = .invalid ∨ x = .dateTime ∨ x = .base64) (unit : SiUnit)
    (names : List String) :
    readFloat x.toParamValue = none ∧ x.toParamValue.asInt = none ∧ x.toParamValue.asBool = none ∧
    x.toParamValue.asStr = none ∧ valueWithUnitFrom unit x.toParamValue = none ∧
    TypeSelector.fromParams names x.toParamValue = none ∧
    Py.other.toParamValue = some x.toParamValue := by
  have : x.toParamValue = .array [] := by
    rcases hx with rfl | rfl | rfl <;> rw [XmlRpc.toParamValue]
  rw [this, Py.toParamValue]
  exact ⟨rfl, rfl, rfl, rfl, rfl, rfl, rfl⟩

/-- They are not ignored where a list of names is expected: that setting becomes the empty list. -/
theorem C76_unsupported_list_fails : stringListFrom XmlRpc.dateTime.toParamValue = some [] := by
  rw [XmlRpc.toParamValue]
  rfl

/-- A Python name is cut at its first NUL character; two different names can then be the same, and the entry that
comes first is kept. -/
theorem C76_nul_fails :
    ∃ a b : String, a ≠ b ∧
      (Py.dict [(.str a, .int 1), (.str b, .int 2)]).toParamValue = some (.map [("a", .int 1)]) := by
  refine ⟨String.ofList ['a', Char.ofNat 0, 'b'], String.ofList ['a', Char.ofNat 0, 'c'], by decide +kernel, ?_⟩
  have h1 : cStr (String.ofList ['a', Char.ofNat 0, 'b']) = "a" := by decide +kernel
  have h2 : cStr (String.ofList ['a', Char.ofNat 0, 'c']) = "a" := by decide +kernel
  have h3 : ¬("a" : String) < "a" := by decide +kernel
  have i1 : pyInt 1 = some 1 := by decide +kernel
  have i2 : pyInt 2 = some 2 := by decide +kernel
  simp only [Py.toParamValue, Py.toParamEntries, h1, h2, i1, i2, Param.emplace, h3, if_false]

/-! ## Non-vacuity -/

/-- A ROS configuration of a map, and the same in Python with its entries in another order. -/
def rosExample : XmlRpc :=
  .struct [("min_cell_width", .struct [("meters", .double (1 / 10))]), ("tree_height", .int 6),
    ("type", .str "hashed_wavelet_octree")]

/-- See `rosExample`. -/
def pyExample : Py :=
  .dict [(.str "type", .str "hashed_wavelet_octree"), (.str "tree_height", .int 6),
    (.other 3, .int (2 ^ 40)), (.str "min_cell_width", .dict [(.str "meters", .float (1 / 10))])]

example : rosExample.toParamValue =
    .map [("min_cell_width", .map [("meters", .float (1 / 10))]), ("tree_height", .int 6),
      ("type", .str "hashed_wavelet_octree")] := by
  have h1 : ¬("tree_height" : String) < "min_cell_width" := by decide +kernel
  have h2 : ("min_cell_width" : String) < "tree_height" := by decide +kernel
  have h3 : ¬("type" : String) < "min_cell_width" := by decide +kernel
  have h4 : ("min_cell_width" : String) < "type" := by decide +kernel
  have h5 : ¬("type" : String) < "tree_height" := by decide +kernel
  have h6 : ("tree_height" : String) < "type" := by decide +kernel
  simp only [rosExample, XmlRpc.toParamValue, XmlRpc.toParamEntries, Param.emplace, h1, h2, h3, h4, h5, h6, if_true,
    if_false]

example : (rosExample.at [.key "min_cell_width", .key "meters"]).map XmlRpc.seen = some (.float (1 / 10)) := by
  simp [rosExample, XmlRpc.at, XmlRpc.child, lookup_cons_ite, XmlRpc.seen]

/-- The example meets all hypotheses of `C76_same_partial`. -/
theorem pyExample_ok : pyExample.Distinct ∧ pyExample.NoNul ∧ pyExample.Fits ∧
    ∀ p, (rosExample.at p).map XmlRpc.seen = (pyExample.at p).map Py.seen := by
  have hk : ∀ p y, pyExample.at p = some y →
      y = pyExample ∨ y = .str "hashed_wavelet_octree" ∨ y = .int 6 ∨ y = .dict [(.str "meters", .float (1 / 10))] ∨
        y = .float (1 / 10) := by
    intro p y
    match p with
    | [] => intro h; simp only [Py.at, Option.some.injEq] at h; exact .inl h.symm
    | .item i :: p => intro h; simp [pyExample, Py.at, Py.child] at h
    | [.key k] =>
      intro h
      simp only [pyExample, Py.at, Py.child, lookup_cons_ite] at h
      split_ifs at h <;> simp_all
    | .key k :: .item i :: p =>
      intro h
      simp only [pyExample, Py.at, Py.child, lookup_cons_ite] at h
      split_ifs at h <;> simp_all
    | [.key k, .key l] =>
      intro h
      simp only [pyExample, Py.at, Py.child, lookup_cons_ite] at h
      split_ifs at h <;> simp_all [lookup_cons_ite]
      split_ifs at h <;> simp_all
    | .key k :: .key l :: s :: p =>
      intro h
      simp only [pyExample, Py.at, Py.child, lookup_cons_ite] at h
      split_ifs at h <;> simp_all [lookup_cons_ite]
      split_ifs at h <;> cases s <;> simp_all
  refine ⟨?_, ⟨?_, ?_⟩, ?_, ?_⟩
  · refine .dict _ (by decide +kernel) ?_
    intro e he
    simp only [List.mem_cons, List.not_mem_nil, or_false] at he
    rcases he with rfl | rfl | rfl | rfl
    · exact .str _
    · exact .int _
    · exact .int _
    · refine .dict _ (by decide +kernel) ?_
      intro e he
      simp only [List.mem_cons, List.not_mem_nil, or_false] at he
      subst he
      exact .float _
  · intro p s h
    rcases hk p _ h with h | h | h | h | h <;> cases h
    decide +kernel
  · intro p es k v h hm
    rcases hk p _ h with h | h | h | h | h <;> cases h
    · simp only [List.mem_cons, List.not_mem_nil, or_false, Prod.mk.injEq, PyKey.str.injEq, reduceCtorEq, false_and,
        false_or] at hm
      rcases hm with ⟨rfl, _⟩ | ⟨rfl, _⟩ | ⟨rfl, _⟩ <;> decide +kernel
    · simp only [List.mem_cons, List.not_mem_nil, or_false, Prod.mk.injEq, PyKey.str.injEq] at hm
      rw [hm.1]
      decide +kernel
  · intro p i h
    rcases hk p _ h with h | h | h | h | h <;> cases h
    norm_num
  · intro p
    match p with
    | [] => rfl
    | .item i :: p => rfl
    | .key k :: p =>
      simp only [rosExample, pyExample, Py.at, Py.child, XmlRpc.at, XmlRpc.child, lookup_cons_ite, PyKey.str.injEq,
        reduceCtorEq, if_false]
      by_cases h1 : k = "min_cell_width"
      · subst h1
        simp only [if_true, String.reduceEq, if_false]
        match p with
        | [] => rfl
        | .item i :: p => rfl
        | .key l :: p =>
          simp only [Py.at, Py.child, XmlRpc.at, XmlRpc.child, lookup_cons_ite, PyKey.str.injEq]
          by_cases h2 : l = "meters"
          · simp only [h2, if_true]
            match p with
            | [] => rfl
            | .item i :: p => rfl
            | .key l :: p => rfl
          · simp [h2]
      · by_cases h2 : k = "tree_height"
        · subst h2
          simp only [if_true, String.reduceEq, if_false]
          match p with
          | [] => rfl
          | .item i :: p => rfl
          | .key l :: p => rfl
        · by_cases h3 : k = "type"
          · subst h3
            simp only [if_true, String.reduceEq, if_false]
            match p with
            | [] => rfl
            | .item i :: p => rfl
            | .key l :: p => rfl
          · simp [h1, h2, h3]

example : pyExample.toParamValue = some rosExample.toParamValue :=
  C76_same_partial _ _ pyExample_ok.1 pyExample_ok.2.1 pyExample_ok.2.2.1 pyExample_ok.2.2.2

/-- A number that does not fit makes the conversion throw. -/
example : (Py.list [.int (2 ^ 31)]).toParamValue = none := by
  have : pyInt (2 ^ 31) = none := by decide +kernel
  simp only [Py.toParamValue, Py.toParamValues, this]

end Wavemap
