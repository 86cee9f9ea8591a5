import Verif.Props.Binned
import Verif.Props.Utils
import Verif.Props.Traversal
import Verif.Props.Validate
import Verif.Props.Aabb
import Verif.Props.Slab
import Verif.Props.Exact
import Verif.Props.BinnedBounds
import Verif.Props.Refit
import Verif.Props.Mbvh
import Verif.Props.Morton
import Verif.Props.Locb
import Verif.Props.LocRule
import Verif.Props.Spawner
import Verif.Props.TriangleSplit
import Verif.Props.Ffi
import Verif.Props.Spatial
import Verif.Props.EndToEnd
import Verif.Props.TooDeep
import Verif.Props.Order
import Verif.Props.Measures
import Verif.Props.SahChoice
import Verif.Props.BinnedMiss
import Verif.Props.Queries
import Verif.Props.AnyHit
import Verif.Props.PacketQuery
import Verif.Props.PacketLanes
import Verif.Props.Race
import Verif.Props.LocbPar
import Verif.Props.SceneBounds
import Verif.Props.SpatialRule
import Verif.Props.SpatialBounds
import Verif.Props.SpatialFault
import Verif.Props.SpatialPlane
import Verif.Props.Fine
import Verif.Props.FineEnds
import Verif.Props.BuildQuery
import Verif.Props.Watertight
import Verif.Props.FfiQuery
import Verif.Props.FfiWatertight
import Verif.Props.FfiSpatial
import Verif.Props.FfiSpatialHits
import Verif.Props.FfiConc
import Verif.Props.Layout
import Verif.Props.NaN
import Verif.Props.SpatialSpawner
import Verif.Props.LocbDebug
import Verif.Props.Debug
import Verif.Props.Transform
import Verif.Props.ShortSlice
import Verif.Props.Example
import Verif.Props.FfiConcMbvh
import Verif.Spec.Reach
import Verif.Proofs.SpatialMove
import Verif.Props.SpatialMove
import Verif.Props.SpatialQuery
import Verif.Props.SpatialPacket
import Verif.Props.SpatialSpared
import Verif.Props.Refitted
import Verif.Props.RefitAgain
import Verif.Props.Work
import Verif.Props.Once
import Verif.Props.Center
import Verif.Props.Unwind
import Verif.Props.Words
import Verif.Props.Lanes
import Verif.Props.Camera
import Verif.Props.SpatialRefit
import Verif.Props.EqualRays
import Verif.Props.Edges
import Verif.Props.Next
import Verif.Props.SpatialSize
import Verif.Props.SpatialSpine
import Verif.Props.SpatialRounded
import Verif.Props.TraceExact
import Verif.Props.TraceOrder
import Verif.Props.Trace
import Verif.Props.Rounding
import Verif.Props.PadLimit
import Verif.Props.Batch
import Verif.Props.Impure
import Verif.Props.ImpurePure
import Verif.Props.FfiSpatialMbvh
import Verif.Props.Pruning
import Verif.Props.FfiPruning
