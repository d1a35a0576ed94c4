import Verif.Model.Factories
import Verif.Model.Aabb
import Verif.Model.ChunkedWavelet
/-!
# The measurement pipeline, its periodic map operations, and the stopwatch

Models `library/cpp/src/pipeline/pipeline.cc`, `library/cpp/include/wavemap/pipeline/impl/pipeline_inl.h`,
`library/cpp/src/pipeline/map_operations/{prune,threshold}_map_operation.cc`,
`interfaces/ros1/wavemap_ros/src/map_operations/crop_map_operation.cc` and
`library/cpp/src/core/utils/time/stopwatch.cc`.

Clock readings are rational numbers of seconds (the code counts nanoseconds in 64 bits and converts to `float` or `double`).
-/
namespace Wavemap

/-- `Pipeline` (pipeline.h:20-89). `I` and `O` are the integrator and operation objects: the pipeline owns pointers to
them, so what matters is which object is registered. `integrators_` is a `std::unordered_map`, modelled by the list of its
entries. The map and thread pool it also holds are only handed to the factories. -/
structure Pipeline (I O : Type) where
  integrators : List (String × I)
  operations : List O

namespace Pipeline
variable {I O : Type}

/-- Constructor (pipeline.h:26-30). -/
def create : Pipeline I O := ⟨[], []⟩

/-- `clearIntegrators` (pipeline.h:54). -/
def clearIntegrators (p : Pipeline I O) : Pipeline I O := { p with integrators := [] }

/-- `clearOperations` (pipeline.h:63). -/
def clearOperations (p : Pipeline I O) : Pipeline I O := { p with operations := [] }

/-- `clear` (pipeline.cc:10-13). -/
def clear (p : Pipeline I O) : Pipeline I O := p.clearIntegrators.clearOperations

/-- `hasIntegrator` (pipeline.cc:15-17). -/
def hasIntegrator (p : Pipeline I O) (name : String) : Bool := p.integrators.any fun e => e.1 == name

/-- `removeIntegrator` (pipeline.cc:19-21): whether `erase` removed an entry, and the pipeline afterwards. -/
def removeIntegrator (p : Pipeline I O) (name : String) : Bool × Pipeline I O :=
  (p.hasIntegrator name, { p with integrators := p.integrators.filter fun e => !(e.1 == name) })

/-- `getIntegrator` (pipeline.cc:23-28). -/
def getIntegrator (p : Pipeline I O) (name : String) : Option I :=
  (p.integrators.find? fun e => e.1 == name).map Prod.snd

/-- `addIntegrator` with an object (pipeline.cc:37-54): the returned pointer and the pipeline afterwards.
`try_emplace` keeps the existing entry if the name is taken. -/
def addIntegrator (p : Pipeline I O) (name : String) (integrator : Option I) : Option I × Pipeline I O :=
  match integrator with
  | none => (none, p)
  | some i => if p.hasIntegrator name then (none, p) else (some i, { p with integrators := p.integrators ++ [(name, i)] })

/-- `addOperation` with an object (pipeline.cc:62-66). -/
def addOperation (p : Pipeline I O) (operation : Option O) : Option O × Pipeline I O :=
  match operation with
  | none => (none, p)
  | some o => (some o, { p with operations := p.operations ++ [o] })

/-- `addIntegrator` with parameters (pipeline.cc:30-35); `none` if the factory aborts. -/
def addIntegratorFrom (p : Pipeline IntegratorObject O) (name : String) (params : Param.Value) (map : Option MapObject) :
    Option (Option IntegratorObject × Pipeline IntegratorObject O) :=
  match IntegratorFactory.create params map none with
  | .made i => some (p.addIntegrator name (some i))
  | .null => some (p.addIntegrator name none)
  | .abort => none

/-- `addOperation` with parameters (pipeline.cc:56-60); `none` if the factory aborts. -/
def addOperationFrom (p : Pipeline I OperationObject) (params : Param.Value) (map : Option MapObject) :
    Option (Option OperationObject × Pipeline I OperationObject) :=
  match MapOperationFactory.create params map with
  | .made o => some (p.addOperation (some o))
  | .null => some (p.addOperation none)
  | .abort => none

/-- `runIntegrators` (pipeline_inl.h:8-19) on the state `w` of the map, the integrators and the operations.
`integrate i w` is the state after `i->integrate(measurement)`. -/
def runIntegrators {W : Type} (p : Pipeline I O) (integrate : I → W → W) : List String → W → Bool × W
  | [], w => (true, w)
  | name :: names, w =>
    match p.getIntegrator name with
    | some i => runIntegrators p integrate names (integrate i w)
    | none => (false, w)

/-- `runOperations` (pipeline.cc:68-72). -/
def runOperations {W : Type} (p : Pipeline I O) (run : O → Bool → W → W) (forceRunAll : Bool) (w : W) : W :=
  p.operations.foldl (fun w o => run o forceRunAll w) w

/-- `runPipeline` (pipeline_inl.h:21-27). -/
def runPipeline {W : Type} (p : Pipeline I O) (integrate : I → W → W) (run : O → Bool → W → W) (names : List String) (w : W) :
    Bool × W :=
  let r := p.runIntegrators integrate names w
  (r.1, p.runOperations run false r.2)

end Pipeline

/-! ## Periodic operations -/

/-- The state common to the periodic operations: `config_.once_every` and `last_run_timestamp_`
(prune_map_operation.h:36-37, threshold_map_operation.h:37-38, crop_map_operation.h:47-50). -/
structure PeriodicOperation where
  onceEvery : ℚ
  lastRun : ℚ

namespace PeriodicOperation
variable {M : Type}

/-- A new operation: `Timestamp last_run_timestamp_` is default constructed, which is the clock's epoch
(prune_map_operation.h:37). -/
def create (onceEvery : ℚ) : PeriodicOperation := ⟨onceEvery, 0⟩

/-- `shouldRun` (prune_map_operation.cc:11-14, threshold_map_operation.cc:11-14, crop_map_operation.cc:36-38). -/
def shouldRun (op : PeriodicOperation) (now : ℚ) : Bool := decide (op.onceEvery < now - op.lastRun)

/-- `run` (prune_map_operation.cc:16-22, threshold_map_operation.cc:16-22). `work` is the effect on the map at the given
clock reading. (`pruneSmart` reads the clock again for its own purposes; both readings are the same here.) -/
def run (op : PeriodicOperation) (work : ℚ → M → M) (force : Bool) (now : ℚ) (m : M) : PeriodicOperation × M :=
  if force || op.shouldRun now then ({ op with lastRun := now }, work now m) else (op, m)

/-- Several calls of `run`: each has the `force_run` argument and the clock reading (prune_map_operation.cc:16-22, threshold_map_operation.cc:16-22). -/
def runAll (work : ℚ → M → M) : List (Bool × ℚ) → PeriodicOperation → M → PeriodicOperation × M
  | [], op, m => (op, m)
  | c :: calls, op, m =>
    let r := op.run work c.1 c.2 m
    runAll work calls r.1 r.2

end PeriodicOperation

/-! ## Cropping -/

/-- `nodeIndexToAABB` (index_conversions.h:142-152). -/
def nodeIndexToAabb {d : Nat} (n : NdtreeIndex d) (minCellWidth : ℚ) : Aabb d :=
  ⟨indexToMinCorner n.position (heightToCellWidth minCellWidth n.height.toNat),
   indexToMaxCorner n.position (heightToCellWidth minCellWidth n.height.toNat)⟩

/-- The indicator of the crop operation (crop_map_operation.cc:67-74). The code compares `distance` with the norm of the
offset; `distance` is positive for a valid configuration, so comparing the squares is the same. -/
def cropIndicator (treeHeight : Nat) (minCellWidth distance : ℚ) (center : Point 3) (blockIndex : Index 3) : Bool :=
  decide (distance ^ 2 < (nodeIndexToAabb ⟨treeHeight, blockIndex⟩ minCellWidth).minSquaredDistanceTo center)

/-- `CropMapOperation::run` (crop_map_operation.cc:40-89) on a hashed wavelet octree. `lookup` is the result of the TF
lookup of the body's position at the time of the call. -/
def cropRun (op : PeriodicOperation) (distance : ℚ) (force : Bool) (now : ℚ) (lookup : Option (Point 3))
    (m : HashedWaveletOctree) : PeriodicOperation × HashedWaveletOctree :=
  if !force && !op.shouldRun now then (op, m)
  else
    let op := { op with lastRun := now }
    if m.blocks.isEmpty then (op, m)
    else match lookup with
      | none => (op, m)
      | some t => (op, m.eraseBlockIf (cropIndicator m.config.treeHeight m.config.minCellWidth distance t))

/-- `CropMapOperation::run` (crop_map_operation.cc:40-89) on a hashed chunked wavelet octree. -/
def cropRunChunked (op : PeriodicOperation) (distance : ℚ) (force : Bool) (now : ℚ) (lookup : Option (Point 3))
    (m : HashedChunkedWaveletOctree) : PeriodicOperation × HashedChunkedWaveletOctree :=
  if !force && !op.shouldRun now then (op, m)
  else
    let op := { op with lastRun := now }
    if m.blocks.isEmpty then (op, m)
    else match lookup with
      | none => (op, m)
      | some t => (op, m.eraseBlockIf (cropIndicator m.config.treeHeight m.config.minCellWidth distance t))

/-! ## Stopwatch -/

/-- `Stopwatch` (stopwatch.h:15-87). -/
structure Stopwatch where
  running : Bool
  episodeStart : ℚ
  lastEpisode : ℚ
  total : ℚ

namespace Stopwatch

/-- A new stopwatch; `reset()` (stopwatch.h:73) assigns it. -/
def create : Stopwatch := ⟨false, 0, 0, 0⟩

/-- `start` (stopwatch.cc:6-13). -/
def start (s : Stopwatch) (now : ℚ) : Stopwatch :=
  if s.running then s else { s with episodeStart := now, running := true }

/-- `stop` (stopwatch.cc:15-25). -/
def stop (s : Stopwatch) (now : ℚ) : Stopwatch :=
  if !s.running then s
  else { s with running := false, lastEpisode := now - s.episodeStart, total := s.total + (now - s.episodeStart) }

end Stopwatch
end Wavemap
