import Verif.Props.Morton
import Verif.Props.NodeIndex
import Verif.Props.LinearIndex
import Verif.Props.Points
import Verif.Props.Haar
import Verif.Props.Octree
import Verif.Props.HashedBlocks
import Verif.Props.WaveletOctree
import Verif.Props.HashedWavelet
import Verif.Props.WaveletMaintenance
import Verif.Props.IndexBounds
import Verif.Props.ThreadPool
import Verif.Props.Aabb
import Verif.Props.Containers
import Verif.Props.Iterate
import Verif.Props.Ray
import Verif.Props.SubtreeIterator
import Verif.Props.Neighbors
import Verif.Props.Occupancy
import Verif.Props.Measurement
import Verif.Props.RangeImport
import Verif.Props.RangeBounds
import Verif.Props.Intersector
import Verif.Props.Projectors
import Verif.Props.ChunkedNdtree
import Verif.Props.ChunkedWavelet
import Verif.Props.VolumetricOctree
import Verif.Props.Io
import Verif.Props.QueryAccelerator
import Verif.Props.NdtreeBlockHash
import Verif.Props.QueryNdtree
import Verif.Props.ClassifiedMap
import Verif.Props.Interpolate
import Verif.Props.PointSampler
import Verif.Props.Sdf
import Verif.Props.Config
import Verif.Props.ConfigNames
import Verif.Props.Factories
import Verif.Props.Pipeline
import Verif.Props.Undistortion
import Verif.Props.MapMsg
import Verif.Props.WaveletIntegrator
import Verif.Props.OctreeIntegrators
import Verif.Props.ChunkedIntegrator
import Verif.Props.CoarseToFine
import Verif.Props.FixedResolution
import Verif.Props.RayTracing
import Verif.Props.InputQueue
import Verif.Props.RosServer
import Verif.Props.LidarProjectors
import Verif.Props.Azimuth
import Verif.Props.Poses
import Verif.Props.ObstacleCloud
import Verif.Props.VoxelDisplay
import Verif.Props.VoxelDisplayRuns
import Verif.Props.VoxelDisplayExamples
import Verif.Props.SliceDisplay
import Verif.Props.SliceDisplayRuns
import Verif.Props.SliceDisplayExamples
import Verif.Props.VoxelDisplayServed
import Verif.Props.Colours
import Verif.Props.ParamConversions
import Verif.Props.PythonMaps
import Verif.Props.Rosbag
import Verif.Props.SinglePrecision
import Verif.Props.Ieee
import Verif.Props.SingleMaps
import Verif.Props.SceneChange
import Verif.Props.Probability
import Verif.Props.SinglePruning
import Verif.Props.IntMath
import Verif.Props.Contraction
import Verif.Props.ResourceMonitor
import Verif.Props.DefaultSceneChange
import Verif.Props.HashedSceneChange
import Verif.Props.SingleChunked
import Verif.Props.SingleOverflow
import Verif.Props.CellLayer
import Verif.Props.IndexHash
import Verif.Props.NodeHeight
import Verif.Props.SingleRay
import Verif.Props.SingleInterpolate
import Verif.Props.SingleCamera
import Verif.Props.SinglePoses
import Verif.Props.SingleMeasurement
import Verif.Props.SingleCell
import Verif.Props.SingleLidar
import Verif.Props.SingleLidarCell
import Verif.Props.SingleNeighbors
import Verif.Props.SingleClearing
import Verif.Props.SingleLidarClearing
import Verif.Props.SingleNeighborsCell
import Verif.Props.SingleLidarNeighborsCell
import Verif.Props.SingleSensors
