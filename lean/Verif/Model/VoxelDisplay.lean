import Verif.Model.ObstacleCloud
import Verif.Model.MapMsg
import Verif.Model.Neighbors
import Verif.Model.RosServer
import Mathlib.Data.Nat.Find
import Mathlib.Algebra.Order.Group.Unbundled.Int
/-!
# The voxel display of the RViz plugin

Models `interfaces/ros1/wavemap_rviz_plugin/src/visuals/{voxel_visual,cell_selector}.cc` with their headers and the map handling of
`src/wavemap_map_display.cc`. Line numbers without a file name refer to `voxel_visual.cc`.

Left out: the scene graph, materials and opacity (a layer is the width of its cells and their list), the pose of the map's frame, the property menu and the
number of queued blocks it shows, and the slice display. All callbacks run on RViz's main thread, and the map's mutex is held while a function uses the map,
so they are atomic steps. Distances to the camera only matter through their order and through the recommended level of detail, so the model compares
squares and needs no square root.
-/
namespace Wavemap

/-- `MapBase::getTreeHeight` (hashed_blocks.h:44, wavelet_octree.h:76, hashed_wavelet_octree.h:90, hashed_chunked_wavelet_octree.h:95,
volumetric_octree.h:70). -/
def AnyMap.treeHeight : AnyMap → Nat
  | .hashedBlocks _ => 0
  | .waveletOctree m => m.config.treeHeight
  | .hashedWavelet m => m.config.treeHeight
  | .hashedChunked m => m.config.treeHeight
  | .volumetricOctree m => m.config.treeHeight

/-- `map[key] = value` of an `std::unordered_map`. Used at voxel_visual.cc:158-168. -/
def SpatialHash.put {d : Nat} {β : Type} (m : SpatialHash d β) (key : Index d) (b : β) : SpatialHash d β :=
  (m.getOrAllocateBlock key b).modifyBlock key fun _ => b

/-! ## The cell selector -/

/-- `CellSelectionMode` (cell_selector.h:14-20). -/
inductive SelectionMode where
  | surface | band
deriving DecidableEq

/-- `CellSelector` (cell_selector.h:22-63). `accelerator` is the optional query accelerator. It refers to a map object and caches pointers into it, so it may only
be used while the map has not changed since; what it holds is the version of the map it was made for. -/
structure CellSelector where
  mode : SelectionMode := .surface
  surface : ℚ := 1 / 1000
  bandMin : ℚ := 1 / 1000
  bandMax : ℚ := 1000000
  unknown : ℚ := 1 / 10000
  accelerator : Option Nat := none
deriving DecidableEq

namespace CellSelector

/-- `isUnknown` (cell_selector.h:34-36). -/
def isUnknown (sel : CellSelector) (v : ℚ) : Bool := decide (|v| < sel.unknown)

/-- The loop of `hasFreeNeighbor` (cell_selector.cc:97-110). `value` reads a node through the accelerator; `none` is using an accelerator that does not exist
or whose map has changed. -/
def anyFree (sel : CellSelector) (value : NdtreeIndex 3 → Option ℚ) (n : NdtreeIndex 3) : List (Index 3) → Option Bool
  | [] => some false
  | o :: os =>
    match value ⟨n.height, fun i => n.position i + o i⟩ with
    | none => none
    | some v => if v < sel.surface && !sel.isUnknown v then some true else sel.anyFree value n os

/-- `hasFreeNeighbor` (cell_selector.cc:97-110) with `kNeighborOffsets` (cell_selector.cc:8-9). -/
def hasFreeNeighbor (sel : CellSelector) (value : NdtreeIndex 3 → Option ℚ) (n : NdtreeIndex 3) : Option Bool :=
  match generateIndexOffsets 3 .anyDisjoint with
  | none => none
  | some offsets => sel.anyFree value n offsets

/-- `shouldBeDrawn` (cell_selector.cc:71-95). -/
def shouldBeDrawn (sel : CellSelector) (value : NdtreeIndex 3 → Option ℚ) (n : NdtreeIndex 3) (v : ℚ) : Option Bool :=
  match sel.mode with
  | .surface => if v < sel.surface || sel.isUnknown v then some false else sel.hasFreeNeighbor value n
  | .band => some !(decide (v < sel.bandMin) || decide (sel.bandMax < v) || sel.isUnknown v)

/-- `setMap` (cell_selector.cc:55-69). -/
def setMap (sel : CellSelector) (m : AnyMap) (version : Nat) : CellSelector :=
  match m with
  | .hashedWavelet _ => { sel with accelerator := some version }
  | _ => if sel.mode = .surface then { sel with mode := .band } else sel

end CellSelector

/-! ## Drawing -/

/-- `VoxelColorMode` (voxel_visual.h:33-39) with the color of the flat mode. -/
inductive ColourMode where
  | height | probability | flat (colour : Nat)
deriving DecidableEq

/-- The color of a cell: the conversions `positionToColor` and `logOddsToColor` are not evaluated (voxel_visual.cc:357-369). -/
inductive Colour where
  | ofPosition (p : Point 3) | ofLogOdds (v : ℚ) | flat (colour : Nat)
deriving DecidableEq

/-- The color chosen for a cell (voxel_visual.cc:357-369). -/
def ColourMode.pick (c : ColourMode) (center : Point 3) (v : ℚ) : Colour :=
  match c with
  | .height => .ofPosition center
  | .probability => .ofLogOdds v
  | .flat x => .flat x

/-- `Cell` (cell_layer.h:21-28). -/
structure DrawnCell where
  center : Point 3
  colour : Colour
deriving DecidableEq

/-- `CellLayer`: the dimensions are set when it is created, the cells whenever it is updated (cell_layer.h:21-28, voxel_visual.cc:372-407). -/
structure CellLayer where
  width : ℚ
  cells : List DrawnCell
deriving DecidableEq

/-- The loop over the leaves with `appendLeafCenterAndColor` (voxel_visual.cc:334-370; 172-176, 481-488). -/
def drawLeaves (draw : NdtreeIndex 3 → ℚ → Option Bool) (colour : ColourMode) (H : Int) (w : ℚ) :
    List (NdtreeIndex 3 × ℚ) → List (List DrawnCell) → Outcome (List (List DrawnCell))
  | [], levels => .done levels
  | e :: es, levels =>
    match draw e.1 e.2 with
    | none => .undefined
    | some false => drawLeaves draw colour H w es levels
    | some true =>
      let depth := H - e.1.height
      if 0 ≤ depth ∧ depth < levels.length then
        let center := nodeIndexToCenterPoint e.1 w
        drawLeaves draw colour H w es (levels.modify depth.toNat (· ++ [⟨center, colour.pick center e.2⟩]))
      else .abort

/-- `drawMultiResolutionVoxels` (voxel_visual.cc:372-407). Layers that exist keep their dimensions. With no levels at all, the loop that removes layers runs past the
beginning. -/
def drawMultiResolutionVoxels (H : Int) (w : ℚ) (levels : List (List DrawnCell)) (layers : List CellLayer) : Outcome (List CellLayer) :=
  if levels = [] then .undefined
  else .done (levels.mapIdx fun depth cells =>
    match layers[depth]? with
    | some layer => ⟨layer.width, cells⟩
    | none => ⟨heightToCellWidth w (H - depth).toNat, cells⟩)

/-- Drawing a list of leaves at `numLevels` levels (voxel_visual.cc:170-180, 479-491). A vector cannot have a negative size. -/
def drawVoxels (draw : NdtreeIndex 3 → ℚ → Option Bool) (colour : ColourMode) (H : Int) (w : ℚ) (numLevels : Int) (leaves : List (NdtreeIndex 3 × ℚ))
    (layers : List CellLayer) : Outcome (List CellLayer) :=
  if numLevels < 0 then .abort
  else (drawLeaves draw colour H w leaves (List.replicate numLevels.toNat [])).bind fun levels => drawMultiResolutionVoxels H w levels layers

/-! ## The display -/

/-- `VoxelVisual` (voxel_visual.h:43-149) with the map it shares with `WavemapMapDisplay`. `version` counts the changes of the map. -/
structure VoxelDisplay where
  map : Option AnyMap := none
  version : Nat := 0
  selector : CellSelector := {}
  visible : Bool := true
  /-- `termination_height_property_` and its maximum. -/
  termHeight : Int := 0
  maxTermHeight : Option Int := none
  colour : ColourMode := .height
  layers : SpatialHash 3 (List CellLayer) := []
  queue : SpatialHash 3 Int := []
  forceLod : Bool := true
  lastUpdate : ℚ := 0

namespace VoxelDisplay

/-- Reading a node through the selector's accelerator. That an accelerator that is used on one unchanged map returns the map's values is C25
(cell_selector.cc:55-69). -/
def nodeValue (s : VoxelDisplay) (n : NdtreeIndex 3) : Option ℚ :=
  match s.map with
  | some (.hashedWavelet m) => if s.selector.accelerator = some s.version then some (m.getNodeValue n) else none
  | _ => none

/-- `shouldBeDrawn` for the display's selector (cell_selector.cc:71-110). -/
def draws (s : VoxelDisplay) : NdtreeIndex 3 → ℚ → Option Bool := s.selector.shouldBeDrawn s.nodeValue

/-- `IntProperty::setMax(tree_height)` (voxel_visual.cc:122) clamps the value and, if it changed, calls `terminationHeightUpdateCallback` (voxel_visual.h:68). -/
def limitTermHeight (s : VoxelDisplay) (H : Nat) : VoxelDisplay :=
  let t := max 0 (min (H : Int) s.termHeight)
  { s with maxTermHeight := some H, termHeight := t, forceLod := s.forceLod || decide (t ≠ s.termHeight) }

/-- The loop that fills the queue (voxel_visual.cc:158-168). -/
def enqueue (redrawAll : Bool) : List (Index 3 × WaveletBlock) → VoxelDisplay → VoxelDisplay
  | [], s => s
  | e :: es, s =>
    enqueue redrawAll es
      (if redrawAll || decide (s.lastUpdate < e.2.lastUpdated) then { s with queue := s.queue.put e.1 s.termHeight, forceLod := true } else s)

/-- `updateMap` (voxel_visual.cc:101-187); `now` is `start_time`. -/
def updateMap (s : VoxelDisplay) (redrawAll : Bool) (now : ℚ) : Outcome VoxelDisplay :=
  if !s.visible then .done s
  else
    match s.map with
    | none => .done s
    | some m =>
      let s := { s with selector := s.selector.setMap m s.version }.limitTermHeight m.treeHeight
      match m with
      | .hashedWavelet hashed =>
        let s := { s with
          layers := s.layers.filter fun e => hashed.blocks.hasBlock e.1
          queue := s.queue.filter fun e => hashed.blocks.hasBlock e.1 }
        .done { enqueue redrawAll hashed.blocks s with lastUpdate := now }
      | _ =>
        match publishedLeaves false 0 m with
        | none => .undefined -- not possible: the loops over the leaves end
        | some leaves =>
          let old := (s.layers.getBlock fun _ => 0).getD []
          (drawVoxels s.draws s.colour m.treeHeight m.minCellWidth ((m.treeHeight : Int) + 1) leaves old).bind fun layers =>
            .done { s with layers := s.layers.put (fun _ => 0) layers, lastUpdate := now }

/-- `clear` (voxel_visual.h:58). -/
def clear (s : VoxelDisplay) : VoxelDisplay := { s with layers := [] }

/-! ### Level of detail -/

/-- What is used of the camera: whether its projection is orthographic, and its position (voxel_visual.cc:242-268). -/
structure Camera where
  orthographic : Bool
  position : Point 3

/-- `kFactor` (voxel_visual.cc:264), as a decimal number. -/
def lodFactor : ℚ := 2 / 1000

/-- Whether `level ≤ floor(log2(1 + kFactor * distance / min_cell_width))` (voxel_visual.cc:265-267), for the square of the distance. -/
def lodReached (w sqDistance : ℚ) (level : Nat) : Bool := decide (((2 ^ level - 1 : ℚ) * w / lodFactor) ^ 2 ≤ sqDistance)

/-- `computeRecommendedBlockLodHeight` (voxel_visual.cc:242-268). `std::clamp` with bounds in the wrong order is undefined: `none`. The level is searched up to the upper
bound only. -/
def recommendedHeight (camera : Camera) (H : Nat) (w : ℚ) (k : Index 3) (lo hi : Int) : Option Int :=
  if camera.orthographic then some lo
  else if hi < lo then none
  else some (max lo (Nat.findGreatest (fun level => lodReached w ((nodeIndexToAabb ⟨H, k⟩ w).minSquaredDistanceTo camera.position) level = true) hi.toNat))

/-- `getCurrentBlockLodHeight` (voxel_visual.cc:270-279). -/
def currentHeight (s : VoxelDisplay) (H : Nat) (k : Index 3) : Option Int :=
  (s.layers.getBlock k).map fun layers => (H : Int) - ((layers.length : Int) - 1)

/-- The loop of `updateLOD` (voxel_visual.cc:208-238) over the blocks of the map. -/
def updateBlockLods (camera : Camera) (H : Nat) (w : ℚ) : List (Index 3) → VoxelDisplay → Outcome VoxelDisplay
  | [], s => .done s
  | k :: ks, s =>
    match recommendedHeight camera H w k s.termHeight ((H : Int) - 1) with
    | none => .undefined
    | some recommended =>
      updateBlockLods camera H w ks
        (if s.queue.hasBlock k then { s with queue := s.queue.put k recommended }
        else
          match s.currentHeight H k with
          | none => s
          | some current =>
            if current < s.termHeight ∨ current < recommended - 1 ∨ recommended < current then { s with queue := s.queue.put k recommended } else s)

/-- `updateLOD` (voxel_visual.cc:189-240). -/
def updateLod (s : VoxelDisplay) (camera : Camera) : Outcome VoxelDisplay :=
  if !s.visible then .done s
  else
    match s.map with
    | some (.hashedWavelet m) => updateBlockLods camera m.config.treeHeight m.config.minCellWidth (m.blocks.map Prod.fst) s
    | _ => .done s

/-! ### The queue -/

/-- `ChangedBlockToSort` (voxel_visual.cc:432-436), with the square of the distance. -/
structure QueuedBlock where
  index : Index 3
  heightDifference : Int
  sqDistance : ℚ
deriving DecidableEq

/-- The entry made for a queued block (voxel_visual.cc:438-450). -/
def queuedBlock (s : VoxelDisplay) (H : Nat) (w : ℚ) (position : Point 3) (e : Index 3 × Int) : QueuedBlock :=
  ⟨e.1, match s.currentHeight H e.1 with
    | some current => |e.2 - current|
    | none => H, (nodeIndexToAabb ⟨H, e.1⟩ w).minSquaredDistanceTo position⟩

/-- The comparison passed to `std::sort` (voxel_visual.cc:451-468). -/
def drawsBefore (a b : QueuedBlock) : Bool :=
  if |a.heightDifference - b.heightDifference| < 2 then decide (a.sqDistance < b.sqDistance)
  else decide (b.heightDifference < a.heightDifference)

/-- `std::sort` requires the comparison to be a strict weak ordering of the elements: asymmetric, transitive, and so that not being comparable is transitive.
With any other comparison its behaviour is undefined. Auxiliary for voxel_visual.cc:451-468. -/
def strictWeakOrder (l : List QueuedBlock) : Bool :=
  l.all fun a => l.all fun b =>
    !(drawsBefore a b && drawsBefore b a) &&
    l.all fun c =>
      (!(drawsBefore a b && drawsBefore b c) || drawsBefore a c) &&
      (drawsBefore a b || drawsBefore b a || drawsBefore b c || drawsBefore c b || !(drawsBefore a c || drawsBefore c a))

/-- The loop that draws the blocks (voxel_visual.cc:476-499). `cut` is the number of blocks after which the time limit is exceeded; it is checked after a block has been
drawn. -/
def drawQueue (m : HashedWaveletOctree) : Nat → List (Index 3) → VoxelDisplay → Outcome VoxelDisplay
  | _, [], s => .done s
  | cut, k :: ks, s =>
    match m.blocks.getBlock k with
    | none => drawQueue m cut ks s
    | some b =>
      let termHeight := (s.queue.getBlock k).getD 0
      (drawVoxels s.draws s.colour m.config.treeHeight m.config.minCellWidth ((m.config.treeHeight : Int) + 1 - termHeight) (b.forEachLeaf k termHeight)
          ((s.layers.getBlock k).getD [])).bind fun layers =>
        let s := { s with layers := s.layers.put k layers, queue := s.queue.eraseBlock k }
        if cut ≤ 1 then .done s else drawQueue m (cut - 1) ks s

/-- `processBlockUpdateQueue` (voxel_visual.cc:409-504). `sort` stands for `std::sort`. -/
def processQueue (sort : List QueuedBlock → List QueuedBlock) (cut : Nat) (position : Point 3) (s : VoxelDisplay) : Outcome VoxelDisplay :=
  if !s.visible then .done s
  else
    match s.map with
    | some (.hashedWavelet m) =>
      let entries := s.queue.map (s.queuedBlock m.config.treeHeight m.config.minCellWidth position)
      if strictWeakOrder entries then drawQueue m cut ((sort entries).map QueuedBlock.index) s else .undefined
    | _ => .done s

/-- `prerenderCallback` (voxel_visual.cc:531-550). `moved` says whether the camera is further than `lod_update_distance_threshold_` from where it was at the last update.
The two positions of the camera (in its parent's frame and derived) are one. -/
def prerender (s : VoxelDisplay) (camera : Camera) (moved : Bool) (sort : List QueuedBlock → List QueuedBlock) (cut : Nat) : Outcome VoxelDisplay :=
  (if s.forceLod || moved then (s.updateLod camera).bind fun s => .done { s with forceLod := false } else .done s).bind fun s =>
    s.processQueue sort cut camera.position

/-! ### Events -/

/-- What happens to the display (voxel_visual.cc, wavemap_map_display.cc). -/
inductive Event where
  /-- A map message arrives (wavemap_map_display.cc:81-124); `transform` says whether the transform to its frame is known. -/
  | message (msg : MapMsg) (now : ℚ) (transform : Bool)
  /-- The user loads a map from a file with these contents (wavemap_map_display.cc:65-69, 275-298). -/
  | load (file : IStream) (now : ℚ)
  /-- The user changes the source mode (wavemap_map_display.cc:57-63, 126-156, without the subscription and the menu). -/
  | sourceMode (now : ℚ)
  /-- The user resets the display (wavemap_map_display.cc:44-49). -/
  | reset
  /-- The user enables or disables the voxels (`visibilityUpdateCallback`, lines 292-299). -/
  | setVisible (visible : Bool) (now : ℚ)
  /-- The user changes the selection mode or thresholds (cell_selector.cc:112-145). -/
  | setMode (mode : SelectionMode) (now : ℚ)
  | setThresholds (surface bandMin bandMax unknown now : ℚ)
  /-- The user changes the colors (voxel_visual.cc:307-332; changing the flat color in another mode redraws without a visible change and is left out). -/
  | setColour (colour : ColourMode) (now : ℚ)
  /-- The user changes the termination height; the property clamps it (`terminationHeightUpdateCallback`, voxel_visual.h:68). -/
  | setTermHeight (height : Int)
  /-- A frame is about to be rendered. -/
  | frame (camera : Camera) (moved : Bool) (sort : List QueuedBlock → List QueuedBlock) (cut : Nat)

/-- The map has been replaced or changed (wavemap_map_display.cc:81-124). -/
def withMap (s : VoxelDisplay) (map : Option AnyMap) : VoxelDisplay := { s with map := map, version := s.version + 1 }

/-- One event. `updateVisuals` (wavemap_map_display.cc:71-78) returns if there is no map, as does `updateMap`. -/
def step (s : VoxelDisplay) : Event → Outcome VoxelDisplay
  | .message msg now transform =>
    (rosMsgToMap now msg s.map).bind fun r =>
      let s := s.withMap r.2
      if transform then s.updateMap false now else .done s
  | .load file now =>
    match streamToMap now file s.map with
    | none => .undefined -- not possible: the loops end
    | some .abort => .abort
    | some (.returned true map) => (s.withMap map).updateMap true now
    | some (.returned false map) => .done (if map.isNone then s.withMap none else s) -- the pointer is kept or set to null
  | .sourceMode now => (s.withMap (s.map.map AnyMap.clear)).updateMap true now
  | .reset => .done s.clear
  | .setVisible visible now =>
    let s := { s with visible := visible }
    if visible then s.updateMap true now else .done s.clear
  | .setMode mode now =>
    let changed := decide (mode ≠ s.selector.mode)
    let s := { s with selector := { s.selector with mode := mode } }
    if changed then s.updateMap true now else .done s
  | .setThresholds surface bandMin bandMax unknown now =>
    { s with selector := { s.selector with surface := surface, bandMin := bandMin, bandMax := bandMax, unknown := unknown } }.updateMap true now
  | .setColour colour now =>
    let changed := decide (colour ≠ s.colour)
    let s := { s with colour := colour }
    if changed then s.updateMap true now else .done s
  | .setTermHeight height =>
    let t := max 0 (match s.maxTermHeight with
      | some m => min m height
      | none => height)
    .done { s with termHeight := t, forceLod := s.forceLod || decide (t ≠ s.termHeight) }
  | .frame camera moved sort cut => s.prerender camera moved sort cut

/-- A history of events (voxel_visual.cc, wavemap_map_display.cc). -/
def run : List Event → VoxelDisplay → Outcome VoxelDisplay
  | [], s => .done s
  | e :: es, s => (s.step e).bind (run es)

end VoxelDisplay
end Wavemap
