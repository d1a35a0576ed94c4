import Verif.Model.WaveletIntegrator
import Verif.Model.VolumetricOctree
/-!
# The coarse-to-fine integrator

Models `integrator/projective/coarse_to_fine/coarse_to_fine_integrator.{h,cc}`. As in `Model/WaveletIntegrator.lean`, a `Scan` stands for the measurement; the
integrator does not use the scan's origin, range and update resolution.
-/
namespace Wavemap

/-- What happens to a node that was taken from the stack.
Auxiliary: the ways in which an iteration of the loop at coarse_to_fine_integrator.cc:21-80 ends. -/
inductive CoarseAction where
  /-- `continue` without a change -/
  | skip
  /-- `addToCellValue` -/
  | add
  /-- the children are pushed -/
  | refine
  deriving DecidableEq

/-- Lines 27-34 and 68-71 of coarse_to_fine_integrator.cc: the node is updated if the sample is not (almost) zero. -/
def sampleAction (scan : Scan) (n : NdtreeIndex 3) : CoarseAction :=
  if kEpsilon < |scan.sample n| then .add else .skip

/-- The evaluation of a node (coarse_to_fine_integrator.cc:25-79). The second test of `height == 0` (line 64) is never true. -/
def coarseAction (scan : Scan) (n : NdtreeIndex 3) : CoarseAction :=
  if n.height = 0 then sampleAction scan n
  else if scan.updateType n = .fullyUnobserved then .skip
  else if n.height = 0 ∨ scan.coarseEnough (scan.updateType n) n = true then sampleAction scan n
  else .refine

/-- The loop of `updateMap` (coarse_to_fine_integrator.cc:21-80). The head of the list is the top of the stack; children are pushed in
the order of their number. `none` if the loop has not ended after `fuel` iterations. -/
def coarseLoop (scan : Scan) : Nat → VolumetricOctree → List (NdtreeIndex 3) → Option VolumetricOctree
  | _, m, [] => some m
  | 0, _, _ :: _ => none
  | fuel + 1, m, n :: stack =>
    match coarseAction scan n with
    | .skip => coarseLoop scan fuel m stack
    | .add => coarseLoop scan fuel (m.addToNodeValue n (scan.sample n)) stack
    | .refine => coarseLoop scan fuel m (n.computeChildIndices.reverse ++ stack)

/-- The iterations of the loop for a node of height `h`, with its descendants. Auxiliary: the fuel for the loop at coarse_to_fine_integrator.cc:21-80. -/
def coarseCost : Nat → Nat
  | 0 => 1
  | h + 1 => 1 + 8 * coarseCost h

namespace VolumetricOctree

/-- `getFirstChildIndices` (volumetric_octree_inl.h:10-17). -/
def getFirstChildIndices (m : VolumetricOctree) : List (NdtreeIndex 3) :=
  m.internalRoot.computeChildIndices.map m.toExternalNodeIndex

/-- `updateMap` (coarse_to_fine_integrator.cc:10-81). -/
def updateMap (m : VolumetricOctree) (scan : Scan) : Option VolumetricOctree :=
  coarseLoop scan (8 * coarseCost (m.config.treeHeight - 1)) m m.getFirstChildIndices.reverse

end VolumetricOctree
end Wavemap
