import Verif.Model.Iterate
import Verif.Model.NdtreeIndex
/-!
# Adjacency and neighbourhoods

Models `utils/neighbors/{adjacency,grid_adjacency,grid_neighborhood,ndtree_adjacency}.h` and their `impl` files (under
`library/cpp/include/wavemap/core`).
-/
namespace Wavemap

/-- `Adjacency::Id` (adjacency.h:12-20). -/
inductive Adjacency where
  | sharedVertex | sharedEdge | sharedFace | sharedCube | anyDisjoint | any | none
  deriving DecidableEq, Repr

namespace Adjacency

/-- Numeric value of the enumerators (adjacency.h:12-20). -/
def toId : Adjacency → Nat
  | sharedVertex => 0 | sharedEdge => 1 | sharedFace => 2 | sharedCube => 3 | anyDisjoint => 4 | any => 5 | none => 6

/-- `Adjacency::Id{value}` for the values that occur (grid_adjacency_inl.h:21). -/
def ofId : Nat → Adjacency
  | 0 => sharedVertex | 1 => sharedEdge | 2 => sharedFace | 3 => sharedCube | 4 => anyDisjoint | 5 => any | _ => none

/-- `Adjacency::toMask` (adjacency_inl.h:5-20), an 8-bit mask. -/
def toMask (d : Nat) (a : Adjacency) : Nat :=
  if a.toId ≤ 3 then 1 <<< a.toId
  else match a with
    | anyDisjoint => (1 <<< d) - 1
    | any => 255
    | _ => 0

end Adjacency

/-- `computeAdjacency(index_offset)` (grid_adjacency_inl.h:13-22). -/
def computeAdjacency {d : Nat} (offset : Index d) : Adjacency :=
  if (List.finRange d).any fun i => decide (1 < |offset i|) then .none
  else .ofId (d - (∑ i, |offset i|).toNat)

/-- `isAdjacent(index_offset, mask)` (grid_adjacency_inl.h:42-47). -/
def isAdjacentMask {d : Nat} (offset : Index d) (mask : Nat) : Bool :=
  decide ((computeAdjacency offset).toMask d &&& mask ≠ 0)

/-- `isAdjacent(index_offset, id)` (grid_adjacency_inl.h:30-34). -/
def isAdjacent {d : Nat} (offset : Index d) (a : Adjacency) : Bool := isAdjacentMask offset (a.toMask d)

/-- `areAdjacent(index_1, index_2, id)` (grid_adjacency_inl.h:24-28, 36-40). -/
def areAdjacent {d : Nat} (i1 i2 : Index d) (a : Adjacency) : Bool := isAdjacent (fun i => i1 i - i2 i) a

/-- `GridNeighborhood::numNeighbors` (grid_neighborhood_inl.h:7-20). -/
def numNeighbors (d : Nat) (a : Adjacency) : Nat :=
  ((List.range (d + 1)).map fun k => if (a.toMask d).testBit k then exp2 (d - k) * binomial d k else 0).sum

/-- A list of `d` coordinates as an index. Auxiliary for grid_neighborhood_inl.h:7-40. -/
def indexOfList {d : Nat} (l : List Int) : Option (Index d) :=
  if h : l.length = d then some fun i => l[i.val]'(by omega) else none

/-- `GridNeighborhood::generateIndexOffsets` (grid_neighborhood_inl.h:22-40): the offsets written to the array, in
order; `none` would mean that the iteration does not end. -/
def generateIndexOffsets (d : Nat) (a : Adjacency) : Option (List (Index d)) := do
  let b := gridBounds (fun _ : Fin d => -1) (fun _ => 1)
  let visited ← gridVisit b (gridEnd b) (3 ^ d) (gridBegin b)
  let offsets ← visited.mapM indexOfList
  pure (offsets.filter fun o => decide (a = .any) || isAdjacent o a)

/-- `areAdjacent(NdtreeIndex, NdtreeIndex)` (ndtree_adjacency.h:9-28). -/
def nodesAdjacent {d : Nat} (n1 n2 : NdtreeIndex d) : Bool :=
  let diff := (n1.height - n2.height).natAbs
  let width : Int := (exp2 diff : Nat)
  let smallest := if n1.height < n2.height then n1 else n2
  let biggest := if n1.height < n2.height then n2 else n1
  (List.finRange d).all fun i =>
    decide (multExp2 (biggest.position i) diff - 1 ≤ smallest.position i) &&
    decide (smallest.position i ≤ multExp2 (biggest.position i) diff + width)

end Wavemap
