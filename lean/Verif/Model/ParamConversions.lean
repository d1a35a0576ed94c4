import Verif.Model.Param

/-!
# Parameters from ROS and from Python

Models `interfaces/ros1/wavemap_ros_conversions/src/config_conversions.cc` and `library/python/src/param.cc`. Log
messages are not modelled. Floating point numbers are exact `ℚ`; infinities and NaNs are left out.
-/

namespace Wavemap

namespace Param

/-- `std::map::emplace` (used at config_conversions.cc:48 and param.cc:19) on the entries in key order: a new key
is inserted at its place, an entry with the same key stays as it is. -/
def emplace (k : String) (v : Value) : List (String × Value) → List (String × Value)
  | [] => [(k, v)]
  | e :: es =>
    if k < e.1 then (k, v) :: e :: es
    else if e.1 < k then e :: emplace k v es
    else e :: es

end Param

/-- `XmlRpc::XmlRpcValue`: what the ROS parameter server stores. A struct is a `std::map` of its members, modelled by
the list of its entries in the order of iteration. The contents of dates and of binary data play no role. Read by param_conversions.cc. -/
inductive XmlRpc where
  | bool (b : Bool)
  | int (i : Int)
  | double (x : ℚ)
  | str (s : String)
  | array (vs : List XmlRpc)
  | struct (es : List (String × XmlRpc))
  | invalid
  | dateTime
  | base64

mutual

/-- `toParamValue(xml_rpc_value)` (config_conversions.cc:68-103). The cases for arrays and structs include
`toParamArray` (54-67) and `toParamMap` (38-51), whose type checks always succeed here. -/
def XmlRpc.toParamValue : XmlRpc → Param.Value
  | .bool b => .bool b
  | .int i => .int i
  | .double x => .float x
  | .str s => .str s
  | .array vs => .array (XmlRpc.toParamValues vs)
  | .struct es => .map (XmlRpc.toParamEntries es [])
  | .invalid => .array []
  | .dateTime => .array []
  | .base64 => .array []

/-- Loop of `toParamArray` (config_conversions.cc:62-64). -/
def XmlRpc.toParamValues : List XmlRpc → List Param.Value
  | [] => []
  | v :: vs => v.toParamValue :: XmlRpc.toParamValues vs

/-- Loop of `toParamMap` (config_conversions.cc:46-50), continuing with the map `acc`. -/
def XmlRpc.toParamEntries : List (String × XmlRpc) → List (String × Param.Value) → List (String × Param.Value)
  | [], acc => acc
  | (k, v) :: es, acc => XmlRpc.toParamEntries es (Param.emplace k v.toParamValue acc)

end

/-- `toParamMap(xml_rpc_value)` (config_conversions.cc:39-51). -/
def XmlRpc.toParamMap (x : XmlRpc) : List (String × Param.Value) :=
  match x with
  | .struct es => XmlRpc.toParamEntries es []
  | _ => []

/-- `toParamArray(xml_rpc_value)` (config_conversions.cc:53-66). -/
def XmlRpc.toParamArray (x : XmlRpc) : List Param.Value :=
  match x with
  | .array vs => XmlRpc.toParamValues vs
  | _ => []

/-- `toParamValue(nh, ns)` (config_conversions.cc:28-37); `found` is what the parameter server has under the name. -/
def rosParamValue (found : Option XmlRpc) : Param.Value :=
  match found with
  | some x => x.toParamValue
  | none => .map []

/-- `toParamMap(nh, ns)` (config_conversions.cc:6-15). -/
def rosParamMap (found : Option XmlRpc) : List (String × Param.Value) :=
  match found with
  | some x => x.toParamMap
  | none => []

/-- `toParamArray(nh, ns)` (config_conversions.cc:17-26). -/
def rosParamArray (found : Option XmlRpc) : List Param.Value :=
  match found with
  | some x => x.toParamArray
  | none => []

/-- A key of a Python dictionary: a string, or any other hashable object. Read by param.cc. -/
inductive PyKey where
  | str (s : String)
  | other (id : Nat)
deriving DecidableEq

/-- A Python object, as far as param.cc looks at it. Dictionaries list their entries in the order of iteration.
`other` is everything that is not a `bool`, `int`, `float`, `str`, `list` or `dict`: `None`, tuples, arrays.
Objects of subclasses are not distinguished from those of the class, except that a `bool` is not an `int`. Objects
that contain themselves are left out. -/
inductive Py where
  | bool (b : Bool)
  | int (i : Int)
  | float (x : ℚ)
  | str (s : String)
  | list (vs : List Py)
  | dict (es : List (PyKey × Py))
  | other

/-- `std::string{py_str.c_str()}` (param.cc:19, 57): the characters before the first NUL. -/
def cStr (s : String) : String := String.ofList (s.toList.takeWhile (fun c => c ≠ Char.ofNat 0))

/-- `static_cast<int>(py_int)` (param.cc:48): nanobind throws `std::out_of_range` (`none` here) when the number does
not fit into 32 bits. -/
def pyInt (i : Int) : Option Int := if -2 ^ 31 ≤ i ∧ i < 2 ^ 31 then some i else none

mutual

/-- `convert::toParamValue(py_value)` (param.cc:43-68); `none`: an exception. The cases for lists and dictionaries
include `toParamArray` (28-41) and `toParamMap` (7-26), whose casts always succeed here. -/
def Py.toParamValue : Py → Option Param.Value
  | .bool b => some (.bool b)
  | .int i => match pyInt i with
    | some j => some (.int j)
    | none => none
  | .float x => some (.float x)
  | .str s => some (.str (cStr s))
  | .list vs => match Py.toParamValues vs with
    | some ws => some (.array ws)
    | none => none
  | .dict es => match Py.toParamEntries es [] with
    | some fs => some (.map fs)
    | none => none
  | .other => some (.array [])

/-- Loop of `toParamArray` (param.cc:40-42). -/
def Py.toParamValues : List Py → Option (List Param.Value)
  | [] => some []
  | v :: vs => match v.toParamValue with
    | some w => match Py.toParamValues vs with
      | some ws => some (w :: ws)
      | none => none
    | none => none

/-- Loop of `toParamMap` (param.cc:16-26), continuing with the map `acc`: entries whose key is not a string are left
out, and their values are not converted. -/
def Py.toParamEntries : List (PyKey × Py) → List (String × Param.Value) → Option (List (String × Param.Value))
  | [], acc => some acc
  | (.str k, v) :: es, acc => match v.toParamValue with
    | some w => Py.toParamEntries es (Param.emplace (cStr k) w acc)
    | none => none
  | (.other _, _) :: es, acc => Py.toParamEntries es acc

end

end Wavemap
