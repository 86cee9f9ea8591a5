import Verif.Model.Spawner
import Verif.Model.Spatial
/- The spatial build as a client of `TaskSpawner` (src/utils.rs 189-289). -/
namespace Rtbvh
variable {F : Type} [FloatOps F]

/-- The memory shared by the tasks of the spatial build (src/builders/spatial_sah.rs 286-299, 935-1003): node array,
allocation counter, the three reference arrays, `reference_count` and the id array. -/
structure SpatialShared (F : Type) where
  nodes : List (BvhNode F)
  counter : Nat
  refs : RefView F
  refCount : Nat
  prims : List Nat

/-- The spatial build task (src/builders/spatial_sah.rs 725-847) as a task of the spawner.  `none` is a fault: a panic, or
an access outside the arrays after which nothing is known. -/
def spatialRun (ctx : SpatialCtx F) (thr : F) (sh : SpatialShared F) (a : SpatialTask × SpatialPhase) :
    Option (SpatialShared F × Ran (SpatialTask × SpatialPhase)) :=
  match spatialTaskStep ctx thr sh.nodes sh.counter sh.refCount sh.prims (sh.refs.slice a.1.begin a.1.splitEnd) a.1 a.2 with
  | .error _ => none
  | .ok e =>
    let sh' : SpatialShared F := ⟨e.nodes, e.counter, sh.refs.write a.1.begin e.view, e.refCount, e.prims⟩
    match e.new with
    | [] => some (sh', .finished)
    | [x] => some (sh', .goesOn x)
    | x :: y :: _ => some (sh', .forks x y)

/-- `work_size` of the spatial build task (src/builders/spatial_sah.rs 840-842). -/
def spatialSize (a : SpatialTask × SpatialPhase) : Nat := a.1.stop - a.1.begin

/-- `SpatialSahBuilder::build` up to the call of the spawner (src/builders/spatial_sah.rs 935-1019). -/
def spatialSpawn (ctx : SpatialCtx F) : Spawn (SpatialShared F) (SpatialTask × SpatialPhase) :=
  Spawn.init ⟨(spatialInit ctx).nodes, (spatialInit ctx).counter, (spatialInit ctx).refs, (spatialInit ctx).refCount,
      (spatialInit ctx).prims⟩
    ({ node := 0, begin := 0, stop := ctx.aabbs.length, splitEnd := maxReferenceCount ctx, depth := 0, isSorted := false },
      .ready)

end Rtbvh
