import Verif.Model.Aabb
/- Model of the provided methods of trait `SpatialTriangle` (src/builders/spatial_sah.rs 80-245). -/
namespace Rtbvh
variable {F : Type} [FloatOps F]
open FloatOps

/-- What an implementation of `SpatialTriangle` supplies: its three vertices (src/builders/spatial_sah.rs 81-83). -/
structure Triangle (F : Type) where
  v0 : Vec3 F
  v1 : Vec3 F
  v2 : Vec3 F
deriving DecidableEq, Repr

/-- The closure `split_edge` (src/builders/spatial_sah.rs 91-94): `a * t * (b - a)` lane by lane, as written. -/
def splitEdge (axis : Fin 3) (position : F) (a b : Vec3 F) : Vec3 F :=
  let t := ((Vec3.splat position).sub (Vec3.splat (a.get axis))).div (Vec3.splat (b.get axis -. a.get axis))
  (a.mul t).mul (b.sub a)

/-- Grow both boxes by the point where an edge crosses (src/builders/spatial_sah.rs 112-126). -/
def growBoth (cond : Bool) (m : Vec3 F) (lr : Aabb F × Aabb F) : Aabb F × Aabb F :=
  if cond then (lr.1.grow m, lr.2.grow m) else lr

/-- The closure `grow_if` (src/builders/spatial_sah.rs 100-106). -/
def growIf (q : Bool) (p : Vec3 F) (lr : Aabb F × Aabb F) : Aabb F × Aabb F :=
  if q then (lr.1.grow p, lr.2) else (lr.1, lr.2.grow p)

/-- `SpatialTriangle::split` (src/builders/spatial_sah.rs 85-129). -/
def Triangle.split (tr : Triangle F) (axis : Fin 3) (position : F) : Aabb F × Aabb F :=
  let q0 := tr.v0.get axis <=. position
  let q1 := tr.v1.get axis <=. position
  let q2 := tr.v2.get axis <=. position
  growBoth (q2 != q0) (splitEdge axis position tr.v2 tr.v0)
    (growBoth (q1 != q2) (splitEdge axis position tr.v1 tr.v2)
      (growBoth (q0 != q1) (splitEdge axis position tr.v0 tr.v1)
        (growIf q2 tr.v2 (growIf q1 tr.v1 (growIf q0 tr.v0 (Aabb.empty, Aabb.empty))))))

/-- `SpatialTriangle::intersect` (src/builders/spatial_sah.rs 131-163): the new ray and the returned flag. -/
def Triangle.intersect (tr : Triangle F) (ray : Ray F) : Ray F × Bool :=
  let edge1 := tr.v1.sub tr.v0
  let edge2 := tr.v2.sub tr.v0
  let h := ray.direction.cross edge2
  let a := edge1.dot h
  if a >. lit (-1) (-5) && a <. lit 1 (-5) then (ray, false)
  else
    let f := one /. a
    let s := ray.origin.sub tr.v0
    let u := f *. s.dot h
    if !(zero <=. u && u <=. one) then (ray, false)
    else
      let q := s.cross edge1
      let v := f *. ray.direction.dot q
      if v <. zero || (u +. v) >. one then (ray, false)
      else
        let t := f *. edge2.dot q
        if t >. ray.tMin && t <. ray.t then ({ ray with t := t }, true) else (ray, false)

/-- `SpatialTriangle::intersect4` (src/builders/spatial_sah.rs 165-244): the new packet and the returned value. -/
def Triangle.intersect4 (tr : Triangle F) (packet : RayPacket4 F) (tMin : Vec4 F) :
    RayPacket4 F × Option (Vec4 Bool) :=
  let e1x := tr.v1.x -. tr.v0.x
  let e1y := tr.v1.y -. tr.v0.y
  let e1z := tr.v1.z -. tr.v0.z
  let e2x := tr.v2.x -. tr.v0.x
  let e2y := tr.v2.y -. tr.v0.y
  let e2z := tr.v2.z -. tr.v0.z
  let hx := Vec4.ofFn fun i => (packet.directionY.get i *. e2z) -. (packet.directionZ.get i *. e2y)
  let hy := Vec4.ofFn fun i => (packet.directionZ.get i *. e2x) -. (packet.directionX.get i *. e2z)
  let hz := Vec4.ofFn fun i => (packet.directionX.get i *. e2y) -. (packet.directionY.get i *. e2x)
  let a := Vec4.ofFn fun i => (e1x *. hx.get i) +. (e1y *. hy.get i) +. (e1z *. hz.get i)
  let eps : F := lit 1 (-6)
  let mask1 := a.map fun a => a <=. neg eps || a >=. eps
  if !mask1.any then (packet, none)
  else
    let f := a.map fun a => one /. a
    let sx := packet.originX.map fun o => o -. tr.v0.x
    let sy := packet.originY.map fun o => o -. tr.v0.y
    let sz := packet.originZ.map fun o => o -. tr.v0.z
    let u := Vec4.ofFn fun i => f.get i *. ((sx.get i *. hx.get i) +. (sy.get i *. hy.get i) +. (sz.get i *. hz.get i))
    let mask2 := Vec4.ofFn fun i => mask1.get i && (u.get i >=. zero && u.get i <=. one)
    if !mask2.any then (packet, none)
    else
      let qx := Vec4.ofFn fun i => sy.get i *. e1z -. sz.get i *. e1y
      let qy := Vec4.ofFn fun i => sz.get i *. e1x -. sx.get i *. e1z
      let qz := Vec4.ofFn fun i => sx.get i *. e1y -. sy.get i *. e1x
      let v := Vec4.ofFn fun i => f.get i *. ((packet.directionX.get i *. qx.get i) +. (packet.directionY.get i *. qy.get i)
        +. (packet.directionZ.get i *. qz.get i))
      let mask3 := Vec4.ofFn fun i => mask2.get i && (v.get i >=. zero && (u.get i +. v.get i) <=. one)
      if !mask3.any then (packet, none)
      else
        let t := Vec4.ofFn fun i => f.get i *. ((e2x *. qx.get i) +. (e2y *. qy.get i) +. (e2z *. qz.get i))
        let mask4 := Vec4.ofFn fun i => mask3.get i && (t.get i >=. tMin.get i && t.get i <. packet.t.get i)
        if !mask4.any then (packet, none)
        else
          ({ packet with t := Vec4.ofFn fun i => if mask4.get i then t.get i else packet.t.get i }, some mask4)

end Rtbvh
