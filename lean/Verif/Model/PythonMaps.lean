import Verif.Model.QueryAccelerator
import Verif.Model.Interpolate
import Verif.Model.ParamConversions
import Verif.Model.Factories

/-!
# Batch queries of the Python interface

Models the queries for whole arrays in `library/python/src/maps.cc`. An array is the list of its rows. The functions
for the two hashed wavelet maps are the same text.
-/

namespace Wavemap

/-- A computation that asks for the values of nodes one after the other; what it asks may depend on the answers.
Auxiliary for maps.cc:121-180, 255-316 and map_interpolator_inl.h:8-65. -/
inductive Queries (α : Type) where
  | done (a : α)
  | ask (n : NdtreeIndex 3) (k : ℚ → Queries α)

namespace Queries
variable {α β : Type}

/-- The computation with the answers of `value`. Auxiliary for maps.cc:121-180. -/
def eval (value : NdtreeIndex 3 → ℚ) : Queries α → α
  | .done a => a
  | .ask n k => eval value (k (value n))

/-- The computation on a query accelerator: its result and the accelerator afterwards; `none`: undefined behaviour (maps.cc:127, 156, 204). -/
def accelerated {ν : Type} (w : WaveletNodes ν) : Queries α → WaveletAccelerator ν → Option (α × WaveletAccelerator ν)
  | .done a, acc => some (a, acc)
  | .ask n k, acc =>
    match acc.getCellValue w n with
    | none => none
    | some (v, acc) => accelerated w (k v) acc

end Queries

/-- `interpolate::nearestNeighbor` (map_interpolator_inl.h:8-16) on a map that is only asked through
`getCellValue(Index3D)`, which asks for the node of height 0 (query_accelerator.h:135-137, 187-189). -/
def nearestQueries (width : ℚ) (p : Point 3) : Queries ℚ := .ask ⟨0, pointToNearestIndex p (1 / width)⟩ .done

/-- The loop of `interpolate::trilinear` that gathers the corners from number `k` on (map_interpolator_inl.h:28-32),
`n` of them; `cube` has those before. -/
def gatherCorners (minCorner : Index 3) (finish : (Nat → ℚ) → ℚ) : (n k : Nat) → (cube : Nat → ℚ) → Queries ℚ
  | 0, _, cube => .done (finish cube)
  | n + 1, k, cube =>
    .ask ⟨0, fun i => minCorner i + Interpolate.offset k i⟩ fun v =>
      gatherCorners minCorner finish n (k + 1) fun j => if j = k then v else cube j

/-- `interpolate::trilinear` (map_interpolator_inl.h:18-65), as `nearestQueries`. -/
def trilinearQueries (width : ℚ) (p : Point 3) : Queries ℚ :=
  let a := Interpolate.weight width p
  let c := Interpolate.weightComp width p
  gatherCorners (pointToFloorIndex p (1 / width)) (fun cube =>
    let plane : Nat → ℚ := fun k => c 0 * cube k + a 0 * cube (k + 4)
    let line : Nat → ℚ := fun k => c 1 * plane k + a 1 * plane (k + 2)
    c 2 * line 0 + a 2 * line 1) 8 0 fun _ => 0

/-- The loops over the rows of an array (maps.cc:138-142, 167-173, 217-223, 226-232; 273-277, 303-309, 354-360,
363-369), with one accelerator for all rows. -/
def batchFrom {ν ρ : Type} (w : WaveletNodes ν) (query : ρ → Queries ℚ) : List ρ → WaveletAccelerator ν → Option (List ℚ)
  | [], _ => some []
  | r :: rows, acc =>
    match (query r).accelerated w acc with
    | none => none
    | some (v, acc) =>
      match batchFrom w query rows acc with
      | none => none
      | some vs => some (v :: vs)

/-- A batch query, which makes its own accelerator (maps.cc:127, 156, 204; 261, 291, 340). -/
def batch {ν ρ : Type} (w : WaveletNodes ν) (query : ρ → Queries ℚ) (rows : List ρ) : Option (List ℚ) :=
  batchFrom w query rows (.fresh w)

/-- `get_cell_values(index_list)` (maps.cc:121-149, 255-284). -/
def pyCellValues {ν : Type} (w : WaveletNodes ν) (rows : List (Index 3)) : Option (List ℚ) :=
  batch w (fun i => .ask ⟨0, i⟩ .done) rows

/-- `get_cell_values(node_index_list)` (maps.cc:150-180, 285-316); a row is `(height, x, y, z)`. -/
def pyNodeValues {ν : Type} (w : WaveletNodes ν) (rows : List (Fin 4 → Int)) : Option (List ℚ) :=
  batch w (fun r => .ask ⟨r 0, fun i => r i.succ⟩ .done) rows

/-- `InterpolationMode` (maps.cc:20). -/
inductive InterpolationMode where
  | nearest | trilinear
deriving DecidableEq

/-- `interpolate(position_list, mode)` (maps.cc:197-243, 333-380). `width` is the map's minimum cell width. -/
def pyInterpolate {ν : Type} (w : WaveletNodes ν) (width : ℚ) (mode : InterpolationMode) (rows : List (Point 3)) :
    Option (List ℚ) :=
  match mode with
  | .nearest => batch w (nearestQueries width) rows
  | .trilinear => batch w (trilinearQueries width) rows

/-- `interpolate(position, mode)` for one point (maps.cc:71-86, 181-196, 317-332), which asks the map itself. -/
def pyInterpolateOne (width : ℚ) (getCellValue : Index 3 → ℚ) (mode : InterpolationMode) (p : Point 3) : ℚ :=
  match mode with
  | .nearest => Interpolate.nearestNeighbor width getCellValue p
  | .trilinear => Interpolate.trilinear width getCellValue p

end Wavemap
