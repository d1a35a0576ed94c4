import Verif.Model.ParamConversions

/-!
# Specification: the contents of nested parameters

A nested value is described by what one finds on the way along every path of names and positions. The same
vocabulary is used for the program's parameters, for those of ROS and for Python objects.
-/

namespace Wavemap

/-- One step into a nested value: to the entry of a name, or to the element at a position. -/
inductive ParamStep where
  | key (k : String)
  | item (i : Nat)

/-- What a value is, without its parts. -/
inductive Seen where
  | bool (b : Bool)
  | int (i : Int)
  | float (x : ℚ)
  | str (s : String)
  | list
  | map
deriving DecidableEq

/-- The part of a parameter one step inside it. -/
def Param.Value.child : Param.Value → ParamStep → Option Param.Value
  | .map es, .key k => es.lookup k
  | .array vs, .item i => vs[i]?
  | _, _ => none

/-- The part of a parameter at the end of a path. -/
def Param.Value.at (v : Param.Value) : List ParamStep → Option Param.Value
  | [] => some v
  | s :: p => match v.child s with
    | some w => w.at p
    | none => none

/-- What a parameter is. -/
def Param.Value.seen : Param.Value → Seen
  | .bool b => .bool b
  | .int i => .int i
  | .float x => .float x
  | .str s => .str s
  | .array _ => .list
  | .map _ => .map

/-- The part of a ROS parameter one step inside it. -/
def XmlRpc.child : XmlRpc → ParamStep → Option XmlRpc
  | .struct es, .key k => es.lookup k
  | .array vs, .item i => vs[i]?
  | _, _ => none

/-- The part of a ROS parameter at the end of a path. -/
def XmlRpc.at (x : XmlRpc) : List ParamStep → Option XmlRpc
  | [] => some x
  | s :: p => match x.child s with
    | some w => w.at p
    | none => none

/-- What a ROS parameter is. Those of unsupported types count as lists (without elements). -/
def XmlRpc.seen : XmlRpc → Seen
  | .bool b => .bool b
  | .int i => .int i
  | .double x => .float x
  | .str s => .str s
  | .array _ => .list
  | .struct _ => .map
  | .invalid => .list
  | .dateTime => .list
  | .base64 => .list

/-- The part of a Python object one step inside it. -/
def Py.child : Py → ParamStep → Option Py
  | .dict es, .key k => es.lookup (.str k)
  | .list vs, .item i => vs[i]?
  | _, _ => none

/-- The part of a Python object at the end of a path. -/
def Py.at (y : Py) : List ParamStep → Option Py
  | [] => some y
  | s :: p => match y.child s with
    | some w => w.at p
    | none => none

/-- What a Python object is. Those of unsupported types count as lists (without elements). -/
def Py.seen : Py → Seen
  | .bool b => .bool b
  | .int i => .int i
  | .float x => .float x
  | .str s => .str s
  | .list _ => .list
  | .dict _ => .map
  | .other => .list

/-- A text without NUL characters. -/
def NoNulIn (s : String) : Prop := Char.ofNat 0 ∉ s.toList

instance (s : String) : Decidable (NoNulIn s) := inferInstanceAs (Decidable (Char.ofNat 0 ∉ s.toList))

/-- A Python object none of whose strings and names contains a NUL character. -/
structure Py.NoNul (y : Py) : Prop where
  strings : ∀ p s, y.at p = some (.str s) → NoNulIn s
  keys : ∀ p es k v, y.at p = some (.dict es) → (PyKey.str k, v) ∈ es → NoNulIn k

/-- A Python object as Python can make it: the keys of every dictionary in it are distinct. -/
inductive Py.Distinct : Py → Prop where
  | bool (b) : Distinct (.bool b)
  | int (i) : Distinct (.int i)
  | float (x) : Distinct (.float x)
  | str (s) : Distinct (.str s)
  | list (vs) (h : ∀ v ∈ vs, Distinct v) : Distinct (.list vs)
  | dict (es) (nodup : (es.map Prod.fst).Nodup) (h : ∀ e ∈ es, Distinct e.2) : Distinct (.dict es)
  | other : Distinct .other

/-- All whole numbers in a Python object fit into 32 bits. -/
def Py.Fits (y : Py) : Prop := ∀ p i, y.at p = some (.int i) → -2 ^ 31 ≤ i ∧ i < 2 ^ 31

end Wavemap
