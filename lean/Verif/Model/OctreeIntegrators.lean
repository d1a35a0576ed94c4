import Verif.Model.WaveletIntegrator
/-!
# The wavelet integrator

Models `integrator/projective/coarse_to_fine/wavelet_integrator.{h,cc}` and `impl/wavelet_integrator_inl.h`. As in `Model/WaveletIntegrator.lean`, a `Scan`
stands for the measurement. The loops over the eight children run in the order of their number.
-/
namespace Wavemap
open Haar

/-- The loop over the children in `recursiveSamplerCompressor` (wavelet_integrator_inl.h:83-92): the node and
`child_scale_coefficient_updates`. `w` is `child_scale_coefficients`, `recurse` the recursive call. -/
def samplerChildren (recurse : NdtreeIndex 3 → ℚ → WTree → Fin (2 ^ 3) → Option (WTree × ℚ)) (n : NdtreeIndex 3) (w : Coeffs 3) :
    List (Fin (2 ^ 3)) → WTree × Coeffs 3 → Option (WTree × Coeffs 3)
  | [], x => some x
  | c :: l, (node, updates) =>
    match recurse (n.computeChildIndex c.val) (w c) node c with
    | none => none
    | some (node, u) => samplerChildren recurse n w l (node, fun c' => if c' = c then u else updates c')

/-- `recursiveSamplerCompressor` (wavelet_integrator_inl.h:7-101): the parent node after the call and the returned update of the node's scale
coefficient. `n` is the node, `v` its value, `c` its number among the children of `parent`. The first argument bounds the depth of the recursion;
`none` if it is exceeded. -/
def recursiveSampler (scan : Scan) (lo hi : ℚ) (termination : Int) : Nat → NdtreeIndex 3 → ℚ → WTree → Fin (2 ^ 3) → Option (WTree × ℚ)
  | 0, _, _, _, _ => none
  | fuel + 1, n, v, parent, c =>
    if n.height ≤ termination then
      some (parent, clamp (lo - noiseThreshold) (hi + noiseThreshold) (scan.sample n + v) - v)
    else if scan.updateType n = .fullyUnobserved then some (parent, 0)
    else if scan.updateType n ≠ .possiblyOccupied ∧ v < lo + noiseThreshold / 10 then some (parent, 0)
    else if scan.coarseEnough (scan.updateType n) n then
      if (parent.child c).isNil || !(parent.child c).hasAtLeastOneChild then
        some (parent, clamp (lo - noiseThreshold) (hi + noiseThreshold) (scan.sample n + v) - v)
      else some (parent, scan.sample n)
    else
      let node := parent.getOrAllocateChild c zeroDetails
      match samplerChildren (recursiveSampler scan lo hi termination fuel) n (backward 3 ⟨v, WTree.details node⟩) (List.finRange (2 ^ 3))
          (node, fun _ => 0) with
      | none => none
      | some (node, updates) =>
        let p := forward 3 updates
        some (parent.setChild c (node.setData fun k => WTree.details node k + p.details k), p.scale)

namespace WaveletOctree

/-- `getFirstChildIndices` (wavelet_octree_inl.h:26-33), one of them. -/
def firstChildIndex (m : WaveletOctree) (c : Fin (2 ^ 3)) : NdtreeIndex 3 :=
  m.toExternalNodeIndex (m.internalRoot.computeChildIndex c.val)

/-- The loop of `updateMap` (wavelet_integrator.cc:15-24). Every first child is given the map's root scale as its value. -/
def sampleFirstChildren (m : WaveletOctree) (scan : Scan) : List (Fin (2 ^ 3)) → WTree × Coeffs 3 → Option (WTree × Coeffs 3)
  | [], x => some x
  | c :: l, (root, updates) =>
    match recursiveSampler scan m.config.minLogOdds m.config.maxLogOdds (scan.terminationHeight m.config.minCellWidth) (m.config.treeHeight + 1)
        (m.firstChildIndex c) m.rootScale root c with
    | none => none
    | some (root, u) => sampleFirstChildren m scan l (root, fun c' => if c' = c then u else updates c')

/-- `updateMap` (wavelet_integrator.cc:6-28). -/
def updateMap (m : WaveletOctree) (scan : Scan) : Option WaveletOctree :=
  (m.sampleFirstChildren scan (List.finRange (2 ^ 3)) (m.root, fun _ => 0)).map fun x =>
    let p := forward 3 x.2
    { m with root := x.1.setData fun k => WTree.details x.1 k + p.details k, rootScale := m.rootScale + p.scale }

end WaveletOctree
end Wavemap
