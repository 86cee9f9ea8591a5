import Verif.Model.Ffi
import Verif.Model.Locb
import Verif.Model.Spatial
/- Model of rtbvh_ffi/src/lib.rs: `create_bvh` and `create_spatial_Bvh` from the caller's raw buffers. -/
namespace Rtbvh
variable {F : Type}

/-- `BvhType` (rtbvh_ffi/src/lib.rs 129-133). -/
inductive FfiBvhType
  | locallyOrderedClustered
  | binnedSah
deriving DecidableEq, Repr

/-- What the code leaves to the machine during a build: the arrival order of `par_bridge`, the task schedule, the number of
CPUs and how many clustering rounds have been run so far. -/
structure BuildEnv where
  order : List Nat
  schedule : List Nat
  cpus : Nat
  rounds : Nat

/-- `Vector3` / `Vector4` (rtbvh_ffi/src/lib.rs 391-422) number `i` of the buffer, `floats` being 3 or 4: its `center()` and
its `aabb()`. -/
def ffiPrim [FloatOps F] (centers : Nat → F) (floats i : Nat) : Prim F :=
  { center := TriWrapper.read3 centers (i * floats), aabb := Aabb.empty.grow (TriWrapper.read3 centers (i * floats)) }

/-- `NonZeroUsize::new(prims_per_leaf)` (rtbvh_ffi/src/lib.rs 381, 463, 475). -/
def nonZero (n : Nat) : Option Nat := if n = 0 then none else some n

/-- `slice::from_raw_parts(aabbs as *const Aabb, prim_count)` unless `aabbs` is null (rtbvh_ffi/src/lib.rs 358-362,
451-455): the caller's boxes are reinterpreted in place (same layout: `C48_layout`). -/
def ffiBoxes (aabbs : Option (Nat → RTAabb F)) (n : Nat) : Option (List (Aabb F)) :=
  aabbs.map fun a => (List.range n).map fun i => (a i).toAabb

/-- The builder of `create_bvh` (rtbvh_ffi/src/lib.rs 459-464, 471-476). -/
def ffiBuilder [FloatOps F] (aabbs : Option (Nat → RTAabb F)) (n : Nat) (centers : Nat → F) (floats ppl : Nat) : Builder F :=
  { aabbs := ffiBoxes aabbs n, primitives := (List.range n).map (ffiPrim centers floats), primitivesPerLeaf := nonZero ppl }

/-- The choice of the algorithm (rtbvh_ffi/src/lib.rs 465-468, 478-481). -/
def ffiBuild [FloatOps F] (b : Builder F) (ty : FfiBvhType) (env : BuildEnv) : Except BuildError (Option (Option (Bvh F))) :=
  match ty with
  | .locallyOrderedClustered => b.constructLocb env.order env.cpus env.rounds
  | .binnedSah => b.constructBinnedSah env.order env.schedule

/-- What has become of a call. -/
inductive CallResult (F : Type)
  /-- the library panicked -/
  | panicked
  /-- undefined behaviour -/
  | undefined
  /-- the build has not finished -/
  | running
  /-- the call returned: the manager, the code and the handle written to `*result` -/
  | returned (m : Manager F) (code : ResultCode) (out : Option Handle)
deriving DecidableEq, Repr

/-- The `match bvh` at the end of both functions (rtbvh_ffi/src/lib.rs 382-388, 486-492); `a` is the address the allocator
gives the buffers. -/
def Manager.finish (m : Manager F) (r : Except BuildError (Bvh F)) (a : Nat) : CallResult F :=
  .returned (m.create false r a).1 (m.create false r a).2.1 (m.create false r a).2.2

/-- `create_bvh` (rtbvh_ffi/src/lib.rs 427-493); null pointers are `none` / `resultNull`. -/
def Manager.createBvh [FloatOps F] (m : Manager F) (aabbs : Option (Nat → RTAabb F)) (n : Nat) (centers : Option (Nat → F))
    (stride ppl : Nat) (ty : FfiBvhType) (resultNull : Bool) (env : BuildEnv) (a : Nat) : CallResult F :=
  match centers with
  | none => .returned m .error none
  | some c =>
    if resultNull then .returned m .error none
    else if stride % 4 ≠ 0 then .panicked
    else if stride < 12 then .panicked
    else if 16 < stride then .panicked
    else
      let build := fun floats => ffiBuild (ffiBuilder aabbs n c floats ppl) ty env
      let r := if stride = 12 then some (build 3) else if stride = 16 then some (build 4) else none
      match r with
      | none => .panicked
      | some (.error e) => m.finish (.error e) a
      | some (.ok none) => .panicked
      | some (.ok (some none)) => .running
      | some (.ok (some (some b))) => m.finish (.ok b) a

/-- The triangle the wrapper presents to the spatial builder (rtbvh_ffi/src/lib.rs 304-337). -/
def TriWrapper.triangle (w : TriWrapper F) : Triangle F := ⟨w.vertex0, w.vertex1, w.vertex2⟩

/-- The builder of `create_spatial_Bvh` (rtbvh_ffi/src/lib.rs 364-382). -/
def ffiSpatialBuilder [FloatOps F] (aabbs : Option (Nat → RTAabb F)) (n : Nat) (w : Nat → TriWrapper F) (ppl : Nat) :
    Builder F :=
  { aabbs := ffiBoxes aabbs n, primitives := (List.range n).map fun i => ⟨(w i).center, (w i).aabb⟩,
    primitivesPerLeaf := nonZero ppl }

/-- `create_spatial_Bvh` (rtbvh_ffi/src/lib.rs 344-389) on non-null buffers (the code does not check them); `sort` is the
behaviour of `sort_by`, as in `Builder.constructSpatialSah`.  Writing through a null `result` is undefined behaviour. -/
def Manager.createSpatialBvh [FloatOps F] (m : Manager F) (aabbs : Option (Nat → RTAabb F)) (n : Nat)
    (centers vertices : Nat → F) (stride vertexStride triangleStride ppl : Nat) (resultNull : Bool)
    (sort : Fin 3 → List (Ref F) → Option (List (Ref F))) (env : BuildEnv) (a : Nat) : CallResult F :=
  if stride % 4 ≠ 0 then .panicked
  else
    let w := TriWrapper.new centers vertices stride vertexStride triangleStride
    match (ffiSpatialBuilder aabbs n w ppl).constructSpatialSah (fun i => (w i).triangle.split) sort env.order env.schedule with
    | .error e => m.finish (.error e) a
    | .ok (.error .panic) => .panicked
    | .ok (.error .wildWrite) => .undefined
    | .ok (.ok none) => .running
    | .ok (.ok (some b)) => if resultNull then .undefined else m.finish (.ok b) a

end Rtbvh
