import Verif.Model.VoxelDisplay
import Mathlib.Data.Fin.VecNotation
/-!
# Drawing the cells of a display

Models `visuals/cell_layer.{h,cc}` under `interfaces/ros1/wavemap_rviz_plugin`: how the cells of a layer are written to vertex buffers. Not modelled: the Ogre engine (materials, shaders,
scene nodes, culling) and the packing of a color into 32 bits; a cell keeps its color as it is.
-/
namespace Wavemap
namespace CellDrawing

/-- `kPointVertices` and `kBoxVertices` (cell_layer.cc:20-43), three vertices per line. -/
def boxVertices : List (Point 3) :=
  let h : ℚ := 1 / 2
  [![-h, h, -h], ![-h, -h, -h], ![h, h, -h],   ![h, h, -h], ![-h, -h, -h], ![h, -h, -h],
   ![-h, h, h], ![h, h, h], ![-h, -h, h],   ![h, h, h], ![h, -h, h], ![-h, -h, h],
   ![h, h, h], ![h, h, -h], ![h, -h, h],   ![h, h, -h], ![h, -h, -h], ![h, -h, h],
   ![-h, h, h], ![-h, -h, h], ![-h, h, -h],   ![-h, h, -h], ![-h, -h, h], ![-h, -h, -h],
   ![-h, h, -h], ![h, h, -h], ![-h, h, h],   ![h, h, -h], ![h, h, h], ![-h, h, h],
   ![-h, -h, -h], ![-h, -h, h], ![h, -h, -h],   ![h, -h, -h], ![-h, -h, h], ![h, -h, h]]

/-- One element of a vertex buffer: position, texture coordinates if there is no geometry shader, and color (cell_layer.cc:177-190, 264-277). -/
structure Vertex where
  position : Point 3
  corner : Option (Point 3)
  colour : Colour
deriving DecidableEq

/-- `Ogre::AxisAlignedBox`: null, or the smallest and largest coordinates (cell_layer.h:73). -/
abbrev Box := Option (Point 3 × Point 3)

/-- `AxisAlignedBox::merge(point)` (cell_layer.cc:171). -/
def Box.mergePoint (b : Box) (p : Point 3) : Box :=
  match b with
  | none => some (p, p)
  | some (lo, hi) => some (fun i => min (lo i) (p i), fun i => max (hi i) (p i))

/-- `AxisAlignedBox::merge(box)` (cell_layer.cc:147, 195). -/
def Box.merge (b c : Box) : Box :=
  match b, c with
  | b, none => b
  | none, c => c
  | some (lo, hi), some (lo', hi') => some (fun i => min (lo i) (lo' i), fun i => max (hi i) (hi' i))

/-- `Vector3::squaredLength` (cell_layer.cc:145, 197). -/
def squaredLength (p : Point 3) : ℚ := p 0 * p 0 + p 1 * p 1 + p 2 * p 2

/-- The square of the bounding radius of a box (cell_layer.cc:144-146, 196-198). The square root is not taken. The corners of a null box are not used. -/
def Box.radiusSquared (b : Box) : ℚ :=
  match b with
  | none => 0
  | some (lo, hi) => max (squaredLength lo) (squaredLength hi)

/-- `CellLayerRenderable` (cell_layer.h:86-113): the size of its buffer, what has been written to it, how many vertices are drawn, its box, and the parameters of its shaders. Its own radius
and the start of the vertices, which is always zero, are left out. -/
structure Renderable where
  bufferSize : Nat
  written : List Vertex
  vertexCount : Nat
  box : Box
  size : ℚ × ℚ × ℚ
  alpha : ℚ
deriving DecidableEq

/-- `CellLayer` (cell_layer.h:30-84). -/
structure Layer where
  geometryShader : Bool
  box : Box := none
  radiusSquared : ℚ := 0
  size : ℚ × ℚ × ℚ := (1 / 10, 1 / 10, 1 / 10)
  alpha : ℚ := 1
  renderables : List Renderable := []
deriving DecidableEq

/-- `clear` (cell_layer.cc:60-72). -/
def Layer.clear (l : Layer) : Layer := { l with box := none, radiusSquared := 0, renderables := [] }

/-- `setCellDimensions` (cell_layer.cc:74-83). -/
def Layer.setCellDimensions (l : Layer) (width height depth : ℚ) : Layer :=
  { l with size := (width, height, depth), renderables := l.renderables.map fun r => { r with size := (width, height, depth) } }

/-- `setAlpha` (cell_layer.cc:85-92). Only the first of the four components is modelled, the one that both functions set to the same value. -/
def Layer.setAlpha (l : Layer) (alpha : ℚ) : Layer :=
  { l with alpha := alpha, renderables := l.renderables.map fun r => { r with alpha := alpha } }

/-- `getVerticesPerCell` (cell_layer.cc:228-234). -/
def verticesPerCell (geometryShader : Bool) : Nat := if geometryShader then 1 else 36

/-- `kVectorBufferCapacity` (cell_layer.cc:150). -/
def bufferCapacity : Nat := 36 * 1024 * 10

/-- `createRenderable` (cell_layer.cc:236-256). -/
def Layer.createRenderable (l : Layer) (numVertices : Nat) : Renderable := ⟨numVertices, [], 0, none, l.size, l.alpha⟩

/-- The local variables of `setCells` (cell_layer.cc:119-130): the renderables that are finished, the one being filled, `current_vertex_count`, `buffer_size`, `aabb` and the layer's
box. -/
structure Progress where
  finished : List Renderable
  current : Option Renderable
  vertexCount : Nat
  bufferSize : Nat
  aabb : Box
  box : Box

/-- The body of the `while` loop (cell_layer.cc:135-165): finish the current buffer, if any, and start a new one for the remaining cells. `none` is a failed check. The product of the number
of cells and the number of vertices is computed with 64 bits, its minimum with the capacity fits 32 bits. -/
def nextBuffer (l : Layer) (remaining : Nat) (s : Progress) : Option Progress :=
  let bufferSize := min bufferCapacity (remaining * verticesPerCell l.geometryShader % 2 ^ 64)
  match s.current with
  | none => some { s with current := some (l.createRenderable bufferSize), vertexCount := 0, bufferSize := bufferSize, aabb := none }
  | some r =>
    if s.vertexCount ≠ s.bufferSize then none
    else some { finished := s.finished ++ [{ r with vertexCount := r.bufferSize, box := s.aabb }], current := some (l.createRenderable bufferSize), vertexCount := 0,
                bufferSize := bufferSize, aabb := none, box := Box.merge s.box s.aabb }

/-- Whether the `while` loop goes on (cell_layer.cc:135). -/
def needsBuffer (s : Progress) : Bool := s.current.isNone || decide (s.bufferSize ≤ s.vertexCount)

/-- The vertices of one cell (cell_layer.cc:111-117, 177-190). -/
def cellVertices (geometryShader : Bool) (c : DrawnCell) : List Vertex :=
  if geometryShader then [⟨c.center, none, c.colour⟩] else boxVertices.map fun v => ⟨c.center, some v, c.colour⟩

/-- The loop over the vertices of a cell (cell_layer.cc:177-190). Writing past the end of the buffer is undefined: `none`. -/
def writeVertices : List Vertex → Progress → Option Progress
  | [], s => some s
  | v :: vs, s =>
    match s.current with
    | none => none
    | some r =>
      if r.written.length < r.bufferSize then
        writeVertices vs { s with current := some { r with written := r.written ++ [v] }, vertexCount := s.vertexCount + 1 }
      else none

/-- The loop over the cells (cell_layer.cc:131-191). The `while` loop ends after one round unless the new buffer has no room for any vertex, in which case it would not end: `none`. -/
def fill (l : Layer) : List DrawnCell → Progress → Option Progress
  | [], s => some s
  | c :: cs, s =>
    (if needsBuffer s then nextBuffer l (c :: cs).length s else some s).bind fun s =>
      if needsBuffer s then none
      else (writeVertices (cellVertices l.geometryShader c) { s with aabb := s.aabb.mergePoint c.center }).bind (fill l cs)

/-- `shrinkRenderables` (cell_layer.cc:210-220). -/
def shrinkRenderables (rs : List Renderable) : List Renderable := (rs.reverse.dropWhile fun r => r.vertexCount == 0).reverse

/-- `setCells` (cell_layer.cc:94-208). `none` is a failed check, a write out of bounds or an endless loop. -/
def Layer.setCells (l : Layer) (cells : List DrawnCell) : Option Layer :=
  let l := if l.renderables = [] then l else l.clear
  if cells = [] then some l
  else do
    let s ← fill l cells ⟨[], none, 0, 0, none, none⟩
    match s.current with
    | none => none
    | some r =>
      if r.bufferSize < s.vertexCount then none
      else
        let box := Box.merge s.box s.aabb
        some { l with box := box, radiusSquared := box.radiusSquared,
                      renderables := shrinkRenderables (s.finished ++ [{ r with vertexCount := s.vertexCount, box := s.aabb }]) }

end CellDrawing
end Wavemap
