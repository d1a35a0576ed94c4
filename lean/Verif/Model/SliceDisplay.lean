import Verif.Model.VoxelDisplay
import Mathlib.Analysis.SpecialFunctions.Exp
/-!
# The slice display of the RViz plugin

Models `interfaces/ros1/wavemap_rviz_plugin/src/visuals/slice_visual.cc` with its header, `utils/color_conversions.{h,cc}` and the map handling of
`src/wavemap_map_display.cc`. Line numbers without a file name refer to `slice_visual.cc`.

Left out: the scene graph and the pose of the map's frame, the blending mode of the material, the property menu, and the voxel display, which shares the map
(`Model/VoxelDisplay.lean`). All callbacks run on RViz's main thread. An RViz property calls its slot only if its value changes.
-/
namespace Wavemap

/-! ## Colors -/

/-- `logOddsToColor` (color_conversions.h:9-20): the value of all three channels. -/
noncomputable def logOddsToColor (logOdds : ℝ) : ℝ :=
  let cellOdds := Real.exp logOdds
  let cellProb := cellOdds / (1 + cellOdds)
  1 - cellProb

/-- `scalarToColor` (color_conversions.h:26-39): the value of all three channels. A division by zero does not give a number: `none`. -/
def scalarToColor (value minValue maxValue : ℚ) : Option ℚ :=
  if maxValue - minValue = 0 then none else some ((value - minValue) / (maxValue - minValue))

/-- The red, green and blue channel (`RGBAColor`, color_conversions.h:9-20). -/
structure Rgb where
  r : ℚ
  g : ℚ
  b : ℚ
deriving DecidableEq

/-- `positionToColor` (color_conversions.cc:7-69), for the `z` coordinate of the point; `0.2f` is the decimal number. -/
def positionToColor (z : ℚ) : Rgb :=
  let h := 1 / 5 * z + -2
  let h := h - ⌊h⌋
  let h := h * 6
  let s : ℚ := 1
  let v : ℚ := 1
  let band := ⌊h⌋
  let f := h - band
  let f := if band % 2 = 0 then 1 - f else f
  let m := v * (1 - s)
  let n := v * (1 - s * f)
  if band = 6 ∨ band = 0 then ⟨v, n, m⟩
  else if band = 1 then ⟨n, v, m⟩
  else if band = 2 then ⟨m, v, n⟩
  else if band = 3 then ⟨m, n, v⟩
  else if band = 4 then ⟨n, m, v⟩
  else if band = 5 then ⟨v, m, n⟩
  else ⟨1, 1 / 2, 1 / 2⟩

/-! ## The display -/

/-- `SliceColorMode` (slice_visual.h:25-31). -/
inductive SliceColourMode where
  | probability | raw
deriving DecidableEq

/-- The color of a square: `logOddsToColor` or `scalarToColor`, with their arguments (slice_visual.cc:129-139). -/
inductive SliceColour where
  | ofLogOdds (v : ℚ) | ofScalar (v lo hi : ℚ)
deriving DecidableEq

/-- The color chosen for a cell (slice_visual.cc:129-139). -/
def SliceColourMode.pick (c : SliceColourMode) (lo hi v : ℚ) : SliceColour :=
  match c with
  | .raw => .ofScalar v lo hi
  | .probability => .ofLogOdds v

/-- `Cell` (cell_layer.h:21-28). -/
structure SliceCell where
  x : ℚ
  y : ℚ
  z : ℚ
  colour : SliceColour
deriving DecidableEq

/-- A `CellLayer` of squares: the width is set when it is created, the cells whenever it is updated, and the opacity in both cases
(cell_layer.h:21-28, slice_visual.cc:143-161). -/
structure SliceLayer where
  width : ℚ
  alpha : ℚ
  cells : List SliceCell
deriving DecidableEq

/-- `SliceVisual` (slice_visual.h:35-89) with the map it shares with `WavemapMapDisplay`. -/
structure SliceDisplay where
  map : Option AnyMap := none
  visible : Bool := false
  minLogOdds : ℚ := -1000000
  maxLogOdds : ℚ := 1000000
  height : ℚ := 0
  alpha : ℚ := 1
  colour : SliceColourMode := .probability
  levels : List SliceLayer := []

namespace SliceDisplay

/-- The visitor of the leaves (slice_visual.cc:103-140): the new cell, if one is added. An index outside of `intersecting_indices` is undefined. -/
def leafCell (s : SliceDisplay) (H : Nat) (w : ℚ) (e : NdtreeIndex 3 × ℚ) : Outcome (Option SliceCell) :=
  if e.1.height < 0 ∨ (H : Int) < e.1.height then .undefined
  else if e.1.position 2 ≠ ⌊s.height / heightToCellWidth w e.1.height.toNat⌋ then .done none
  else if e.2 < s.minLogOdds ∨ s.maxLogOdds < e.2 then .done none
  else
    let center := nodeIndexToCenterPoint e.1 w
    .done (some ⟨center 0, center 1, s.height, s.colour.pick s.minLogOdds s.maxLogOdds e.2⟩)

/-- The loop over the leaves: `cells_per_level` is kept as one list of cells with their heights, in the order of the visits (slice_visual.cc:103-140). -/
def leafCells (s : SliceDisplay) (H : Nat) (w : ℚ) : List (NdtreeIndex 3 × ℚ) → Outcome (List (Int × SliceCell))
  | [] => .done []
  | e :: es =>
    (s.leafCell H w e).bind fun c => (leafCells s H w es).bind fun cs =>
      .done (match c with
        | some c => (e.1.height, c) :: cs
        | none => cs)

/-- The loop over the layers (slice_visual.cc:143-161). Layers that exist keep their dimensions, and layers above the height of the map are left as they are. -/
def setLevels (s : SliceDisplay) (H : Nat) (w : ℚ) (cells : List (Int × SliceCell)) : List SliceLayer :=
  ((List.range (H + 1)).map fun (height : Nat) =>
    let at_ := (cells.filter fun c => decide (c.1 = (height : Int))).map Prod.snd
    match s.levels[height]? with
    | some layer => { layer with cells := at_ }
    | none => ⟨heightToCellWidth w height, s.alpha, at_⟩) ++ s.levels.drop (H + 1)

/-- `clear` (slice_visual.h:48). -/
def clear (s : SliceDisplay) : SliceDisplay := { s with levels := [] }

/-- `update` (slice_visual.cc:67-162). -/
def update (s : SliceDisplay) : Outcome SliceDisplay :=
  if !s.visible then .done s.clear
  else
    match s.map with
    | none => .done s
    | some m =>
      match publishedLeaves false 0 m with
      | none => .undefined -- not possible: the loops over the leaves end
      | some leaves =>
        (s.leafCells m.treeHeight m.minCellWidth leaves).bind fun cells =>
          .done { s with levels := s.setLevels m.treeHeight m.minCellWidth cells }

/-- What happens to the display (slice_visual.cc, wavemap_map_display.cc). -/
inductive Event where
  /-- A map message arrives (wavemap_map_display.cc:81-124); `transform` says whether the transform to its frame is known. -/
  | message (msg : MapMsg) (now : ℚ) (transform : Bool)
  /-- The user loads a map from a file with these contents (wavemap_map_display.cc:65-69, 275-298). -/
  | load (file : IStream) (now : ℚ)
  /-- The user changes the source mode (wavemap_map_display.cc:57-63, 126-156, without the subscription and the menu). -/
  | sourceMode
  /-- The user resets the display (wavemap_map_display.cc:44-49). -/
  | reset
  /-- The user changes a property of the slice (slice_visual.h:57-59; lines 20-38, 175-178, 207-216). -/
  | setVisible (visible : Bool)
  | setMinLogOdds (v : ℚ)
  | setMaxLogOdds (v : ℚ)
  | setHeight (height : ℚ)
  | setAlpha (alpha : ℚ)
  | setColour (colour : SliceColourMode)

/-- One event. `updateVisuals` (wavemap_map_display.cc:71-78) returns if there is no map. -/
def step (s : SliceDisplay) : Event → Outcome SliceDisplay
  | .message msg now transform =>
    (rosMsgToMap now msg s.map).bind fun r =>
      let s := { s with map := r.2 }
      if transform && s.map.isSome then s.update else .done s
  | .load file now =>
    match streamToMap now file s.map with
    | none => .undefined -- not possible: the loops end
    | some .abort => .abort
    | some (.returned true map) =>
      let s := { s with map := map }
      if s.map.isSome then s.update else .done s
    | some (.returned false map) => .done (if map.isNone then { s with map := none } else s) -- the pointer is kept or set to null
  | .sourceMode =>
    let s := { s with map := s.map.map AnyMap.clear }
    if s.map.isSome then s.update else .done s
  | .reset => .done s.clear
  | .setVisible visible => if visible ≠ s.visible then { s with visible := visible }.update else .done s
  | .setMinLogOdds v => if v ≠ s.minLogOdds then { s with minLogOdds := v }.update else .done s
  | .setMaxLogOdds v => if v ≠ s.maxLogOdds then { s with maxLogOdds := v }.update else .done s
  | .setHeight height => if height ≠ s.height then { s with height := height }.update else .done s
  | .setAlpha alpha => .done { s with alpha := alpha, levels := s.levels.map fun layer => { layer with alpha := alpha } }
  | .setColour colour => if colour ≠ s.colour then { s with colour := colour }.update else .done s

/-- A history of events (slice_visual.cc, wavemap_map_display.cc). -/
def run : List Event → SliceDisplay → Outcome SliceDisplay
  | [], s => .done s
  | e :: es, s => (s.step e).bind (run es)

end SliceDisplay
end Wavemap
