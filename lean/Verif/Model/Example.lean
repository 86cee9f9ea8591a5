import Verif.Model.Ray
import Verif.Model.Triangle
import Verif.Model.Iter
/- The workspace's helper crate `shared` (shared/src/lib.rs) and the parts of the visualizer that decide what is drawn
(examples/visualizer.rs).  `f32::sqrt` and `f32::tan` are parameters: the theorems hold for any functions. -/
namespace Rtbvh
variable {F : Type} [FloatOps F]
open FloatOps

/-- `Vec3::normalize`: `self * self.length().recip()` with `length = sqrt(dot(self, self))` (glam, used in
shared/src/lib.rs 21, 121, 161). -/
def Vec3.normalize (sqrt : F → F) (v : Vec3 F) : Vec3 F := v.scale (one /. sqrt (v.dot v))

/-- `CameraView3D` (shared/src/lib.rs 106-117). -/
structure Camera (F : Type) where
  pos : Vec3 F
  right : Vec3 F
  up : Vec3 F
  p1 : Vec3 F
  direction : Vec3 F
  invWidth : F
  invHeight : F
  aspectRatio : F
  fov : F
deriving DecidableEq, Repr

/-- `Vec3::Y`. -/
def unitY : Vec3 F := ⟨zero, one, zero⟩

/-- `screen_size` (shared/src/lib.rs 123, 138): `(fov * 0.5 / (180.0 / PI)).tan()`; `pi` is `std::f32::consts::PI`. -/
def Camera.screenSize (tan : F → F) (pi : F) (c : Camera F) : F :=
  tan ((c.fov *. lit 5 (-1)) /. (lit 180 0 /. pi))

/-- The end of `translate_target` and `translate` (shared/src/lib.rs 123-134, 138-151): the screen's corner `p1` and its
edges `right` and `up` from `pos` and `direction`. -/
def Camera.setScreen (tan : F → F) (pi : F) (c : Camera F) : Camera F :=
  let s := c.screenSize tan pi
  let right := c.direction.cross unitY
  let center := c.pos.add c.direction
  let r := (Vec3.lscale s right).scale c.aspectRatio
  let u := Vec3.lscale s unitY
  let p1 := (center.sub r).add u
  let p2 := (center.add r).add u
  let p3 := (center.sub r).sub u
  { c with p1 := p1, right := p2.sub p1, up := p3.sub p1 }

/-- `CameraView3D::translate_target` (shared/src/lib.rs 120-135). -/
def Camera.translateTarget (sqrt tan : F → F) (pi : F) (c : Camera F) (offset : Vec3 F) : Camera F :=
  Camera.setScreen tan pi
    { c with direction := ((c.direction.sub (Vec3.lscale offset.x c.right)).sub (Vec3.lscale offset.y c.up)).normalize sqrt }

/-- `CameraView3D::translate` (shared/src/lib.rs 137-152). -/
def Camera.translate (tan : F → F) (pi : F) (c : Camera F) (offset : Vec3 F) : Camera F :=
  let right := c.direction.cross unitY
  Camera.setScreen tan pi
    { c with pos := c.pos.add (((Vec3.lscale (neg offset.x) right).add (Vec3.lscale offset.y unitY)).add
        (Vec3.lscale offset.z c.direction)) }

/-- The point of the screen that the ray of pixel `(x, y)` goes through (shared/src/lib.rs 158-160). -/
def Camera.pixelPoint (c : Camera F) (x y : Nat) : Vec3 F :=
  let u := ofNat x *. c.invWidth
  let v := ofNat y *. c.invHeight
  (c.p1.add (Vec3.lscale u c.right)).add (Vec3.lscale v c.up)

/-- `CameraView3D::generate_ray` (shared/src/lib.rs 157-164). -/
def Camera.generateRay (sqrt : F → F) (c : Camera F) (x y : Nat) : Ray F :=
  Ray.new c.pos (((c.pixelPoint x y).sub c.pos).normalize sqrt)

/-- `CameraView3D::generate_ray4` (shared/src/lib.rs 166-217). -/
def Camera.generateRay4 (sqrt : F → F) (c : Camera F) (x y : Vec4 Nat) : RayPacket4 F :=
  let x : Vec4 F := x.map ofNat
  let y : Vec4 F := y.map ofNat
  let u := x.map (· *. c.invWidth)
  let v := y.map (· *. c.invHeight)
  let px := Vec4.map2 (· +. ·) (Vec4.map2 (· +. ·) (Vec4.splat c.p1.x) (u.map (· *. c.right.x))) (v.map (· *. c.up.x))
  let py := Vec4.map2 (· +. ·) (Vec4.map2 (· +. ·) (Vec4.splat c.p1.y) (u.map (· *. c.right.y))) (v.map (· *. c.up.y))
  let pz := Vec4.map2 (· +. ·) (Vec4.map2 (· +. ·) (Vec4.splat c.p1.z) (u.map (· *. c.right.z))) (v.map (· *. c.up.z))
  let dx := Vec4.map2 (· -. ·) px (Vec4.splat c.pos.x)
  let dy := Vec4.map2 (· -. ·) py (Vec4.splat c.pos.y)
  let dz := Vec4.map2 (· -. ·) pz (Vec4.splat c.pos.z)
  let l2 := Vec4.map2 (· *. ·) dx dx
  let l2 := Vec4.map2 (· +. ·) l2 (Vec4.map2 (· *. ·) dy dy)
  let l2 := Vec4.map2 (· +. ·) l2 (Vec4.map2 (· *. ·) dz dz)
  let length := l2.map sqrt
  let inv := Vec4.map2 (· /. ·) (Vec4.splat one) length
  let dx := Vec4.map2 (· *. ·) dx inv
  let dy := Vec4.map2 (· *. ·) dy inv
  let dz := Vec4.map2 (· *. ·) dz inv
  { originX := Vec4.splat c.pos.x, originY := Vec4.splat c.pos.y, originZ := Vec4.splat c.pos.z
    directionX := dx, directionY := dy, directionZ := dz
    invDirectionX := dx.map (one /. ·), invDirectionY := dy.map (one /. ·), invDirectionZ := dz.map (one /. ·)
    t := Vec4.splat (lit 1 34) }

/-- The ray the visualizer shoots for pixel number `i` in ray mode (examples/visualizer.rs 302-308); the frame has `width`
pixels per row. -/
def pixelRay (sqrt : F → F) (c : Camera F) (width i : Nat) : Ray F :=
  c.generateRay sqrt (i % 2 ^ 32 % width) (i % 2 ^ 32 / width)

/-- The packet it shoots for chunk number `i` in packet mode (examples/visualizer.rs 239-245). -/
def chunkPacket (sqrt : F → F) (c : Camera F) (width i : Nat) : RayPacket4 F :=
  let i := i * 4
  let x := i % 2 ^ 32 % width
  let y := i % 2 ^ 32 / width
  c.generateRay4 sqrt ⟨x, x + 1, x + 2, x + 3⟩ ⟨y, y, y, y⟩

/-- The loop body in ray mode, `if triangle.intersect(r) { t = Some(triangle); }` (examples/visualizer.rs 317-320,
324-327): the ray, and the primitive noted last. -/
def noteHit (tris : List (Triangle F)) (s : Ray F × Option Nat) (p : Nat) : Ray F × Option Nat :=
  match tris[p]? with
  | some tr => ((tr.intersect s.1).1, if (tr.intersect s.1).2 then some p else s.2)
  | none => s

/-- What is noted after the traversal has yielded `items`. -/
def noted (tris : List (Triangle F)) (ray : Ray F) (items : List Nat) : Ray F × Option Nat :=
  items.foldl (noteHit tris) (ray, none)

/-- The loop body in packet mode, `triangles[i] = Some(triangle)` in the lanes of the returned mask
(examples/visualizer.rs 249-262, 265-277); `t_min` is `1e-4` (247). -/
def noteHit4 (tris : List (Triangle F)) (s : RayPacket4 F × Vec4 (Option Nat)) (p : Nat) : RayPacket4 F × Vec4 (Option Nat) :=
  match tris[p]? with
  | some tr =>
    ((tr.intersect4 s.1 (Vec4.splat (lit 1 (-4)))).1,
      match (tr.intersect4 s.1 (Vec4.splat (lit 1 (-4)))).2 with
      | some m => Vec4.map2 (fun hit old => if hit then some p else old) m s.2
      | none => s.2)
  | none => s

/-- What is noted in each lane after the traversal has yielded `items`. -/
def noted4 (tris : List (Triangle F)) (packet : RayPacket4 F) (items : List Nat) : RayPacket4 F × Vec4 (Option Nat) :=
  items.foldl (noteHit4 tris) (packet, Vec4.splat none)

/-- What the visualizer draws for a ray in ray mode (examples/visualizer.rs 316-329): the primitive noted at the end of the
traversal `run`. -/
def drawRay (tris : List (Triangle F)) (run : Ray F → Run (Ray F) Nat) (ray : Ray F) : Option Nat :=
  (noted tris ray (run ray).items).2

/-- The same for the four lanes of a packet (examples/visualizer.rs 248-280). -/
def drawPacket (tris : List (Triangle F)) (run : RayPacket4 F → Run (RayPacket4 F) Nat) (packet : RayPacket4 F) :
    Vec4 (Option Nat) :=
  (noted4 tris packet (run packet).items).2

/-- `Averager` (examples/visualizer.rs 371-376).  `usize` fields. -/
structure Averager (F : Type) where
  values : List F
  capacity : Nat
  index : Nat
  hasLooped : Bool
deriving DecidableEq, Repr

/-- `Averager::with_capacity` (examples/visualizer.rs 394-401); `new` is capacity 100 (385-392). -/
def Averager.withCapacity (capacity : Nat) : Averager F :=
  { values := List.replicate capacity zero, capacity := capacity, index := 0, hasLooped := false }

/-- The loop `values[i] = values[i + 1]` for `i` in `i..i+n` (examples/visualizer.rs 405-407); `none` is an index out of
range. -/
def shiftDown : Nat → Nat → List F → Option (List F)
  | 0, _, vs => some vs
  | n + 1, i, vs =>
    match vs[i + 1]? with
    | some v => if i < vs.length then shiftDown n (i + 1) (vs.set i v) else none
    | none => none

/-- `Averager::add_sample` (examples/visualizer.rs 403-418); `none` is a panic (`capacity - 1` underflows when the capacity
is 0, in a release build the index is then out of range). -/
def Averager.addSample (a : Averager F) (sample : F) : Option (Averager F) :=
  if a.capacity = 0 then none
  else if a.hasLooped then
    match shiftDown (a.capacity - 1) 0 a.values with
    | some vs => if a.capacity - 1 < vs.length then some { a with values := vs.set (a.capacity - 1) sample } else none
    | none => none
  else
    let looped := decide (a.capacity - 1 ≤ a.index)
    if a.index < a.values.length then
      some { a with values := a.values.set a.index sample, index := a.index + 1, hasLooped := looped }
    else none

/-- `Averager::get_average` (examples/visualizer.rs 420-431). -/
def Averager.getAverage (a : Averager F) : Option F :=
  let range := if a.hasLooped then a.capacity else a.index
  if range ≤ a.values.length then
    some ((a.values.take range).foldl (fun avg v => avg +. v) zero *. (one /. ofNat range))
  else none

/-- `Averager::data` (examples/visualizer.rs 433-435). -/
def Averager.data (a : Averager F) : List F := a.values.take (Min.min a.index a.capacity)

end Rtbvh
