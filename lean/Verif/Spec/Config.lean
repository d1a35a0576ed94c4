import Verif.Model.Configs

/-!
# Specification: what a parameter says

How the value of a setting is read from a parameter, in terms of the parameter alone.
-/

namespace Wavemap

/-- A parameter as the program can hold it: the keys of every map in it are distinct (`std::map`, param.h:27). -/
inductive Param.Value.Wf : Param.Value → Prop where
  | bool (b) : Wf (.bool b)
  | int (i) : Wf (.int i)
  | float (x) : Wf (.float x)
  | str (s) : Wf (.str s)
  | array (vs) (h : ∀ v ∈ vs, Wf v) : Wf (.array vs)
  | map (es) (nodup : (es.map Prod.fst).Nodup) (h : ∀ e ∈ es, Wf e.2) : Wf (.map es)

/-- The value `x` of a setting called `name`: what the entry of that name says, if there is one that says
something (`Reads v x`), and the default otherwise. -/
def FieldFrom {β : Type} (es : List (String × Param.Value)) (name : String) (Reads : Param.Value → β → Prop)
    (dflt x : β) : Prop :=
  (∃ v, (name, v) ∈ es ∧ Reads v x) ∨ ((¬∃ v y, (name, v) ∈ es ∧ Reads v y) ∧ x = dflt)

/-- A number: a float or an int. -/
def ReadsFloat (v : Param.Value) (x : ℚ) : Prop := v = .float x ∨ ∃ i : Int, v = .int i ∧ x = i

/-- An int. -/
def ReadsInt (v : Param.Value) (i : Int) : Prop := v = .int i

/-- A boolean. -/
def ReadsBool (v : Param.Value) (b : Bool) : Prop := v = .bool b

/-- A string. -/
def ReadsString (v : Param.Value) (s : String) : Prop := v = .str s

/-- The strings in a list of parameters, in order. -/
def stringsIn : List Param.Value → List String
  | [] => []
  | .str s :: vs => s :: stringsIn vs
  | _ :: vs => stringsIn vs

/-- A list of strings: a single string, or the strings in an array. -/
def ReadsStrings (v : Param.Value) (l : List String) : Prop :=
  (∃ s, v = .str s ∧ l = [s]) ∨ ∃ vs, v = .array vs ∧ l = stringsIn vs

/-- The units and the length of one such unit in the SI unit of its kind. -/
inductive UnitIs : String → SiUnit → ℚ → Prop where
  | meter {s} : s ∈ ["m", "meters"] → UnitIs s .meters 1
  | decimeter {s} : s ∈ ["dm", "decimeters"] → UnitIs s .meters (1 / 10)
  | centimeter {s} : s ∈ ["cm", "centimeters"] → UnitIs s .meters (1 / 100)
  | millimeter {s} : s ∈ ["mm", "millimeters"] → UnitIs s .meters (1 / 1000)
  | radian {s} : s ∈ ["rad", "radians"] → UnitIs s .radians 1
  | degree {s} : s ∈ ["deg", "degrees"] → UnitIs s .radians (kPiQ / 180)
  | pixel {s} : s ∈ ["px", "pixels"] → UnitIs s .pixels 1
  | second {s} : s ∈ ["s", "sec", "seconds"] → UnitIs s .seconds 1

/-- A quantity: a map with a single entry that gives a number in a unit of the right kind. -/
def ReadsUnit (unit : SiUnit) (v : Param.Value) (x : ℚ) : Prop :=
  ∃ name w y factor, v = .map [(name, w)] ∧ UnitIs name unit factor ∧ ReadsFloat w y ∧ x = y * factor

/-- The name of a type: a string, or a map with a string as its entry `"type"`. -/
def NamesType (v : Param.Value) (s : String) : Prop :=
  v = .str s ∨ ∃ es, v = .map es ∧ ("type", .str s) ∈ es

/-- A choice between `names`: the name of the `i`-th. -/
def ReadsType (names : List String) (v : Param.Value) (i : Int) : Prop :=
  ∃ (k : Nat) (s : String), NamesType v s ∧ names[k]? = some s ∧ i = k

/-- The settings of a circular projector. -/
def ReadsCircular (v : Param.Value) (c : Cfg.CircularProjector) : Prop :=
  ∃ es, v = .map es ∧
    FieldFrom es "min_angle" (ReadsUnit .radians) 0 c.minAngle ∧
    FieldFrom es "max_angle" (ReadsUnit .radians) 0 c.maxAngle ∧
    FieldFrom es "num_cells" ReadsInt 0 c.numCells

end Wavemap
