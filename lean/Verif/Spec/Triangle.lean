import Verif.Model.Triangle
import Verif.Model.Exact
import Verif.Spec.Box
import Verif.Spec.Slab
/- Specification vocabulary: triangles in exact arithmetic, written with plain rational operations. -/
namespace Rtbvh

/-- The point with barycentric weights `1 - u - v`, `u`, `v`. -/
def Triangle.point (tr : Triangle Rat) (u v : Rat) : Vec3 Rat :=
  ⟨(1 - u - v) * tr.v0.x + u * tr.v1.x + v * tr.v2.x, (1 - u - v) * tr.v0.y + u * tr.v1.y + v * tr.v2.y,
   (1 - u - v) * tr.v0.z + u * tr.v1.z + v * tr.v2.z⟩

/-- `p` lies on the (closed) triangle. -/
def Triangle.Has (tr : Triangle Rat) (p : Vec3 Rat) : Prop :=
  ∃ u v, 0 ≤ u ∧ 0 ≤ v ∧ u + v ≤ 1 ∧ p = tr.point u v

/-- The point of the ray at parameter `t`. -/
def Ray.at (r : Ray Rat) (t : Rat) : Vec3 Rat :=
  ⟨r.origin.x + t * r.direction.x, r.origin.y + t * r.direction.y, r.origin.z + t * r.direction.z⟩

/-- The determinant with rows `edge1`, `direction`, `edge2`: zero exactly if the ray is parallel to the triangle's
plane (or the triangle is degenerate). -/
def Triangle.det (tr : Triangle Rat) (d : Vec3 Rat) : Rat :=
  let a := tr.v1; let b := tr.v2; let o := tr.v0
  (a.x - o.x) * (d.y * (b.z - o.z) - d.z * (b.y - o.y)) -
    (a.y - o.y) * (d.x * (b.z - o.z) - d.z * (b.x - o.x)) +
    (a.z - o.z) * (d.x * (b.y - o.y) - d.y * (b.x - o.x))

end Rtbvh

namespace Rtbvh
variable {F : Type} [FloatOps F]

/-- The four numbers of the Möller-Trumbore test (determinant, the two barycentric weights, the ray parameter). -/
structure Mt (F : Type) where
  a : F
  u : F
  v : F
  t : F

/-- The Möller-Trumbore numbers for origin `o` and direction `d`, rounded after every operation. -/
def Triangle.mt (tr : Triangle F) (o d : Vec3 F) : Mt F :=
  let e1 := tr.v1.sub tr.v0
  let e2 := tr.v2.sub tr.v0
  let h := d.cross e2
  let f := FloatOps.one /. e1.dot h
  let s := o.sub tr.v0
  let q := s.cross e1
  ⟨e1.dot h, f *. s.dot h, f *. d.dot q, f *. e2.dot q⟩

/-- Whether lane `i` is reported as hit: `None` means no lane is. -/
def laneHit (r : Option (Vec4 Bool)) (i : Fin 4) : Bool := match r with | none => false | some m => m.get i

/-- The direction in lane `i`. -/
def RayPacket4.dirOf (p : RayPacket4 F) (i : Fin 4) : Vec3 F := ⟨p.directionX.get i, p.directionY.get i, p.directionZ.get i⟩

end Rtbvh
