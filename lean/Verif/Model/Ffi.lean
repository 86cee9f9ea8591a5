import Verif.Model.Builder
import Verif.Model.BvhOps
import Verif.Model.Mbvh
import Verif.Model.Triangle
/- Model of rtbvh_ffi/src/lib.rs: conversions, the structure manager with its handles, and the intersect entry points. -/
namespace Rtbvh
variable {F : Type}

/-- `ResultCode` (rtbvh_ffi/src/lib.rs 17-25). -/
inductive ResultCode
  | ok
  | error
  | noPrimitives
  | inequalAabbsAndPrimitives
  | nan
deriving DecidableEq, Repr

/-- `From<BuildError> for ResultCode` (rtbvh_ffi/src/lib.rs 27-34). -/
def ResultCode.ofBuildError : BuildError → ResultCode
  | .noPrimitives => .noPrimitives
  | .inequalAabbsAndPrimitives _ _ => .inequalAabbsAndPrimitives

/-! ### Conversions and memory layout -/

/-- `RTAabb` (rtbvh_ffi/src/lib.rs 144-151). -/
structure RTAabb (F : Type) where
  min : F × F × F
  count : Int
  max : F × F × F
  leftFirst : Int
deriving DecidableEq, Repr

/-- `From<Aabb> for RTAabb` (rtbvh_ffi/src/lib.rs 153-162). -/
def RTAabb.ofAabb (bb : Aabb F) : RTAabb F :=
  { min := (bb.min.x, bb.min.y, bb.min.z), count := bb.extra1, max := (bb.max.x, bb.max.y, bb.max.z)
    leftFirst := bb.extra2 }

/-- `From<RTAabb> for Aabb` (rtbvh_ffi/src/lib.rs 164-173). -/
def RTAabb.toAabb (bb : RTAabb F) : Aabb F :=
  { min := ⟨bb.min.1, bb.min.2.1, bb.min.2.2⟩, extra1 := bb.count, max := ⟨bb.max.1, bb.max.2.1, bb.max.2.2⟩
    extra2 := bb.leftFirst }

/-- `RTBvhNode` (rtbvh_ffi/src/lib.rs 175-179). -/
structure RTBvhNode (F : Type) where
  aabb : RTAabb F
deriving DecidableEq, Repr

/-- `From<RTBvhNode> for BvhNode` (rtbvh_ffi/src/lib.rs 181-187). -/
def RTBvhNode.toNode (n : RTBvhNode F) : BvhNode F := { bounds := n.aabb.toAabb }
/-- `From<BvhNode> for RTBvhNode` (rtbvh_ffi/src/lib.rs 189-195). -/
def RTBvhNode.ofNode (n : BvhNode F) : RTBvhNode F := { aabb := RTAabb.ofAabb n.bounds }

/-- `RTMbvhNode` (rtbvh_ffi/src/lib.rs 197-208). -/
structure RTMbvhNode (F : Type) where
  minX : Vec4 F
  maxX : Vec4 F
  minY : Vec4 F
  maxY : Vec4 F
  minZ : Vec4 F
  maxZ : Vec4 F
  children : Vec4 Int
  counts : Vec4 Int
deriving DecidableEq, Repr

/-- A 32-bit word of memory: a float or an integer. -/
inductive Word (F : Type)
  | f (x : F)
  | i (x : Int)
deriving DecidableEq, Repr

/-- The words of an `[f32; 4]` / `[i32; 4]`. -/
def Vec4.words {α : Type} (w : α → Word F) (v : Vec4 α) : List (Word F) := [w v.x, w v.y, w v.z, w v.w]

/-- The `repr(C)` layout of `Aabb<i32>` (src/aabb.rs 13-20), also of `BvhNode` (src/bvh_node.rs 11-14). -/
def Aabb.words (a : Aabb F) : List (Word F) :=
  [.f a.min.x, .f a.min.y, .f a.min.z, .i a.extra1, .f a.max.x, .f a.max.y, .f a.max.z, .i a.extra2]
/-- The `repr(C)` layout of `RTAabb` (rtbvh_ffi/src/lib.rs 144-151), also of `RTBvhNode`. -/
def RTAabb.words (a : RTAabb F) : List (Word F) :=
  [.f a.min.1, .f a.min.2.1, .f a.min.2.2, .i a.count, .f a.max.1, .f a.max.2.1, .f a.max.2.2, .i a.leftFirst]
/-- The `repr(C)` layout of `MbvhNode` (src/mbvh_node.rs 29-38). -/
def MbvhNode.words (m : MbvhNode F) : List (Word F) :=
  m.minX.words .f ++ m.maxX.words .f ++ m.minY.words .f ++ m.maxY.words .f ++ m.minZ.words .f ++ m.maxZ.words .f ++
    m.children.words .i ++ m.counts.words .i
/-- The `repr(C)` layout of `RTMbvhNode` (rtbvh_ffi/src/lib.rs 197-208). -/
def RTMbvhNode.words (m : RTMbvhNode F) : List (Word F) :=
  m.minX.words .f ++ m.maxX.words .f ++ m.minY.words .f ++ m.maxY.words .f ++ m.minZ.words .f ++ m.maxZ.words .f ++
    m.children.words .i ++ m.counts.words .i

/-! ### The structure manager

Every operation of the manager runs under its locks (`structures`, `m_structures`: rtbvh_ffi/src/lib.rs 12-15), so a
history of calls from any number of threads is a sequence of operations (Model/FfiConc models the locks; C82 proves it).  `intersect*` take no lock; they read the
buffers through the raw pointers in the handle.  The two pointers of a handle are modelled by one address. -/

/-- An entry of `structures` / `m_structures` (rtbvh_ffi/src/lib.rs 12-15): the structure and the address of its buffers
(`none` for the default structure, which owns none). -/
structure Slot (S : Type) where
  val : S
  addr : Option Nat
deriving DecidableEq, Repr

/-- `StructureManager` (rtbvh_ffi/src/lib.rs 12-15). -/
structure Manager (F : Type) where
  slots : List (Slot (Bvh F))
  mslots : List (Slot (Mbvh F))
deriving DecidableEq, Repr

/-- `RTBvh` / `RTMbvh` (rtbvh_ffi/src/lib.rs 210-257): `addr = none` stands for null pointers. -/
structure Handle where
  id : Nat
  nodeCount : Nat
  indexCount : Nat
  addr : Option Nat
deriving DecidableEq, Repr

/-- `x as u32`. -/
def natAsU32 (x : Nat) : Nat := x % 2 ^ 32

/-- `StructureManager::store` (rtbvh_ffi/src/lib.rs 46-60); `a` is the address of the structure's buffers. -/
def Manager.store (m : Manager F) (b : Bvh F) (a : Nat) : Manager F × Handle :=
  ({ m with slots := m.slots ++ [⟨b, some a⟩] },
   { id := natAsU32 m.slots.length, nodeCount := natAsU32 b.nodes.length, indexCount := natAsU32 b.primIndices.length, addr := some a })

/-- `StructureManager::store_mbvh` (rtbvh_ffi/src/lib.rs 62-78). -/
def Manager.storeMbvh (m : Manager F) (b : Mbvh F) (a : Nat) : Manager F × Handle :=
  ({ m with mslots := m.mslots ++ [⟨b, some a⟩] },
   { id := natAsU32 m.mslots.length, nodeCount := natAsU32 b.mNodes.length, indexCount := natAsU32 b.primIndices.length, addr := some a })

/-- `create_bvh` (rtbvh_ffi/src/lib.rs 424-493) and `create_spatial_Bvh` (345-389) after the build: `r` is the builder's
result, `nulls` says whether a checked pointer is null. -/
def Manager.create (m : Manager F) (nulls : Bool) (r : Except BuildError (Bvh F)) (a : Nat) :
    Manager F × ResultCode × Option Handle :=
  if nulls then (m, .error, none)
  else
    match r with
    | .ok b => ((m.store b a).1, .ok, some (m.store b a).2)
    | .error e => (m, .ofBuildError e, none)

/-- `create_mbvh` (rtbvh_ffi/src/lib.rs 495-513) with `MANAGER.get` (80-92); `none` is a panic in `Mbvh::construct`. -/
def Manager.createMbvh [FloatOps F] (m : Manager F) (fuel : Nat) (h : Handle) (nulls : Bool) (a : Nat) :
    Option (Manager F × ResultCode × Option Handle) :=
  if nulls || h.addr.isNone then some (m, .error, none)
  else
    match m.slots[h.id]? with
    | none => some (m, .error, none)
    | some s => (Mbvh.construct fuel s.val).map fun q => ((m.storeMbvh q a).1, .ok, some (m.storeMbvh q a).2)

/-- `refit` (rtbvh_ffi/src/lib.rs 515-538) with `MANAGER.get_mut` (94-106); `aabbs` is the caller's buffer, null if
`none`, of which `prim_count()` boxes are read; `none` as a result is a panic in `Bvh::refit` or a buffer that is too
short (undefined behaviour). -/
def Manager.refit [FloatOps F] (m : Manager F) (aabbs : Option (List (Aabb F))) (h : Handle) : Option (Manager F × ResultCode) :=
  match aabbs with
  | none => some (m, .error)
  | some bs =>
    if h.addr.isNone then some (m, .error)
    else
      match m.slots[h.id]? with
      | none => some (m, .error)
      | some s =>
        if bs.length < s.val.primCount then none
        else (s.val.refit (bs.take s.val.primCount)).map fun b => ({ m with slots := m.slots.set h.id { s with val := b } }, .ok)

/-- `free_bvh` (rtbvh_ffi/src/lib.rs 837-842) with `StructureManager::free` (108-116). -/
def Manager.freeBvh (m : Manager F) (h : Handle) : Manager F :=
  if h.id < m.slots.length then { m with slots := m.slots.set h.id ⟨Bvh.default, none⟩ } else m

/-- `free_mbvh` (rtbvh_ffi/src/lib.rs 844-849) with `StructureManager::free_mbvh` (118-126). -/
def Manager.freeMbvh (m : Manager F) (h : Handle) : Manager F :=
  if h.id < m.mslots.length then { m with mslots := m.mslots.set h.id ⟨Mbvh.default, none⟩ } else m

/-- The slices made from the raw pointers of a `RTBvh` (rtbvh_ffi/src/lib.rs 568-569): the contents of the buffer that
now lives at the handle's address; `none` if none does or it is shorter than the handle says (undefined behaviour). -/
def Manager.slices (m : Manager F) (h : Handle) : Option (List (BvhNode F) × List Nat) :=
  match h.addr with
  | none => none
  | some a =>
    match m.slots.find? (fun s => s.addr == some a) with
    | none => none
    | some s =>
      if h.nodeCount ≤ s.val.nodes.length ∧ h.indexCount ≤ s.val.primIndices.length then
        some (s.val.nodes.take h.nodeCount, s.val.primIndices.take h.indexCount)
      else none

/-- The same for a `RTMbvh` (rtbvh_ffi/src/lib.rs 718-719). -/
def Manager.mslices (m : Manager F) (h : Handle) : Option (List (MbvhNode F) × List Nat) :=
  match h.addr with
  | none => none
  | some a =>
    match m.mslots.find? (fun s => s.addr == some a) with
    | none => none
    | some s =>
      if h.nodeCount ≤ s.val.mNodes.length ∧ h.indexCount ≤ s.val.primIndices.length then
        some (s.val.mNodes.take h.nodeCount, s.val.primIndices.take h.indexCount)
      else none

/-! ### The intersect entry points -/

/-- What a call of an `intersect*` function leaves behind: the returned code, `*t`, the user's data, the ids it called
back with, and how the loop ended (on `panicked` the function does not return). -/
structure FfiOut (T D : Type) where
  code : ResultCode
  t : T
  data : D
  calls : List Nat
  ending : Ending
deriving DecidableEq, Repr

section intersect
variable [FloatOps F] {D : Type}

/-- The body of the loops (rtbvh_ffi/src/lib.rs 572-576, 722-726): the callback gets the id, `&mut ray.t` and the user's
data. -/
def rayBody (cb : Nat → F → D → F × D × Bool) (s : Ray F × D) (id : Nat) : (Ray F × D) × Bool :=
  let r := cb id s.1.t s.2
  (({ s.1 with t := r.1 }, r.2.1), r.2.2)

/-- The body of the packet loops (rtbvh_ffi/src/lib.rs 677-681, 826-830). -/
def packetBody (cb : Nat → Vec4 F → D → Vec4 F × D × Bool) (s : RayPacket4 F × D) (id : Nat) : (RayPacket4 F × D) × Bool :=
  let r := cb id s.1.t s.2
  (({ s.1 with t := r.1 }, r.2.1), r.2.2)

/-- `intersect` (rtbvh_ffi/src/lib.rs 550-581) on the slices of the handle. -/
def ffiIntersect (nodes : List (BvhNode F)) (indices : List Nat) (origin direction : Vec3 F) (t : F) (d : D)
    (cb : Nat → F → D → F × D × Bool) (fuel : Nat) : FfiOut F D :=
  if origin.isNaN || direction.isNaN then { code := .nan, t := t, data := d, calls := [], ending := .finished }
  else
    let ray := { Ray.new origin direction with t := t }
    let r := drive (bvhIndexStep nodes indices (fun b s => b.intersect s.1) closerRay) (rayBody cb) fuel
      (travNew (nodes.isEmpty || ray.hasNaN) (ray, d))
    { code := .ok, t := r.ray.1.t, data := r.ray.2, calls := r.items, ending := r.ending }

/-- `intersect_mbvh` (rtbvh_ffi/src/lib.rs 699-731) on the slices of the handle. -/
def ffiIntersectMbvh (nodes : List (MbvhNode F)) (indices : List Nat) (origin direction : Vec3 F) (t : F) (d : D)
    (cb : Nat → F → D → F × D × Bool) (fuel : Nat) : FfiOut F D :=
  if origin.isNaN || direction.isNaN then { code := .nan, t := t, data := d, calls := [], ending := .finished }
  else
    let ray := { Ray.new origin direction with t := t }
    let r := qdrive (quadStep nodes indices some (fun b s => quadHit b s.1)) (rayBody cb) fuel
      (qtravNew nodes (fun b s => quadHit b s.1) (ray, d))
    { code := .ok, t := r.ray.1.t, data := r.ray.2, calls := r.items, ending := r.ending }

/-- The packet assembled by the packet functions (rtbvh_ffi/src/lib.rs 658-669, 807-818). -/
def ffiPacket (ox oy oz dx dy dz t : Vec4 F) : RayPacket4 F :=
  { originX := ox, originY := oy, originZ := oz, directionX := dx, directionY := dy, directionZ := dz
    invDirectionX := dx.map fun x => FloatOps.one /. x
    invDirectionY := dy.map fun x => FloatOps.one /. x
    invDirectionZ := dz.map fun x => FloatOps.one /. x
    t := t }

/-- `intersect_packet` (rtbvh_ffi/src/lib.rs 599-686) on the slices of the handle. -/
def ffiIntersectPacket (nodes : List (BvhNode F)) (indices : List Nat) (ox oy oz dx dy dz : Vec4 F) (t : Vec4 F) (d : D)
    (cb : Nat → Vec4 F → D → Vec4 F × D × Bool) (fuel : Nat) : FfiOut (Vec4 F) D :=
  if ox.isNaN || oy.isNaN || oz.isNaN || dx.isNaN || dy.isNaN || dz.isNaN then
    { code := .nan, t := t, data := d, calls := [], ending := .finished }
  else
    let p := ffiPacket ox oy oz dx dy dz t
    let r := drive (bvhIndexStep nodes indices (fun b s => b.intersect4 s.1) closerPacket) (packetBody cb) fuel
      (travNew (nodes.isEmpty || p.hasNaN) (p, d))
    { code := .ok, t := r.ray.1.t, data := r.ray.2, calls := r.items, ending := r.ending }

/-- `intersect_mbvh_packet` (rtbvh_ffi/src/lib.rs 749-835) on the slices of the handle. -/
def ffiIntersectMbvhPacket (nodes : List (MbvhNode F)) (indices : List Nat) (ox oy oz dx dy dz : Vec4 F) (t : Vec4 F)
    (d : D) (cb : Nat → Vec4 F → D → Vec4 F × D × Bool) (fuel : Nat) : FfiOut (Vec4 F) D :=
  if ox.isNaN || oy.isNaN || oz.isNaN || dx.isNaN || dy.isNaN || dz.isNaN then
    { code := .nan, t := t, data := d, calls := [], ending := .finished }
  else
    let p := ffiPacket ox oy oz dx dy dz t
    let r := qdrive (quadStep nodes indices some (fun b s => quadHit4 b s.1)) (packetBody cb) fuel
      (qtravNew nodes (fun b s => quadHit4 b s.1) (p, d))
    { code := .ok, t := r.ray.1.t, data := r.ray.2, calls := r.items, ending := r.ending }
end intersect

/-! ### The triangle wrapper of `create_spatial_Bvh` -/

/-- `RTTriangleWrapper` (rtbvh_ffi/src/lib.rs 259-267); the two buffers are given by their floats. -/
structure TriWrapper (F : Type) where
  centers : Nat → F
  centerStride : Nat
  centerI : Nat
  vertices : Nat → F
  vertex0Offset : Nat
  vertexStride : Nat

/-- The wrapper of triangle `i` (rtbvh_ffi/src/lib.rs 364-374); strides in bytes. -/
def TriWrapper.new (centers vertices : Nat → F) (stride vertexStride triangleStride i : Nat) : TriWrapper F :=
  { centers := centers, centerStride := natAsU32 stride, centerI := natAsU32 i, vertices := vertices
    vertex0Offset := natAsU32 (i * triangleStride / 4), vertexStride := natAsU32 (vertexStride / 4) }

namespace TriWrapper
/-- Three floats starting at index `k`. -/
def read3 (buf : Nat → F) (k : Nat) : Vec3 F := ⟨buf k, buf (k + 1), buf (k + 2)⟩
/-- `center` (rtbvh_ffi/src/lib.rs 270-280); the product is a wrapping `u32` product. -/
def center (w : TriWrapper F) : Vec3 F := read3 w.centers (natAsU32 (w.centerI * w.centerStride) / 4)
/-- `aabb` (rtbvh_ffi/src/lib.rs 282-298). -/
def aabb [FloatOps F] (w : TriWrapper F) : Aabb F :=
  let p0 := natAsU32 (w.vertex0Offset * w.vertexStride) / 4
  let p1 := p0 + w.vertexStride / 4
  let p2 := p0 + w.vertexStride / 4 * 2
  ((Aabb.empty.grow (read3 w.vertices p0)).grow (read3 w.vertices p1)).grow (read3 w.vertices p2)
/-- `vertex0` (rtbvh_ffi/src/lib.rs 305-313). -/
def vertex0 (w : TriWrapper F) : Vec3 F := read3 w.vertices w.vertex0Offset
/-- `vertex1` (rtbvh_ffi/src/lib.rs 315-325). -/
def vertex1 (w : TriWrapper F) : Vec3 F := read3 w.vertices (natAsU32 (w.vertex0Offset + w.vertexStride))
/-- `vertex2` (rtbvh_ffi/src/lib.rs 327-336). -/
def vertex2 (w : TriWrapper F) : Vec3 F := read3 w.vertices (natAsU32 (w.vertex0Offset + natAsU32 (2 * w.vertexStride)))
end TriWrapper

end Rtbvh
