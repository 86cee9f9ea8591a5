import Verif.Model.Vec
/- Model of src/ray.rs. -/
namespace Rtbvh
variable {F : Type} [FloatOps F]
open FloatOps

/-- `Ray` (src/ray.rs 9-16).  `signs` is `[u8; 4]` with entries 0/1 and a constant fourth entry; the three used
entries are modelled as booleans. -/
structure Ray (F : Type) where
  origin : Vec3 F
  tMin : F
  direction : Vec3 F
  t : F
  invDirection : Vec3 F
  signX : Bool
  signY : Bool
  signZ : Bool
deriving DecidableEq, Repr

/-- `Ray::DEFAULT_T_MIN` = 1e-4 (src/ray.rs 163). -/
def Ray.defaultTMin : F := lit 1 (-4)
/-- `Ray::DEFAULT_T_MAX` = 1e34 (src/ray.rs 164). -/
def Ray.defaultTMax : F := lit 1 34

/-- `Vec3::ONE / d` (src/ray.rs 179). -/
def recip3 (d : Vec3 F) : Vec3 F := Vec3.div (Vec3.splat one) d

/-- `Ray::new` (src/ray.rs 166-182). -/
def Ray.new (origin direction : Vec3 F) : Ray F :=
  { origin := origin
    direction := direction
    tMin := Ray.defaultTMin
    t := Ray.defaultTMax
    invDirection := recip3 direction
    signX := direction.x <. zero
    signY := direction.y <. zero
    signZ := direction.z <. zero }

/-- `From<(Vec3, Vec3)> for Ray` (src/ray.rs 18-36). -/
def Ray.ofPair (v : Vec3 F × Vec3 F) : Ray F :=
  { origin := v.1
    direction := v.2
    invDirection := recip3 v.2
    tMin := lit 1 (-4)
    t := lit 1 34
    signX := v.2.x <. zero
    signY := v.2.y <. zero
    signZ := v.2.z <. zero }

/-- `From<Ray> for (Vec3, Vec3)` (src/ray.rs 38-42). -/
def Ray.toPair (r : Ray F) : Vec3 F × Vec3 F := (r.origin, r.direction)

/-- `Ray::reflect` (src/ray.rs 185-204). -/
def Ray.reflect (r : Ray F) (hitPoint n : Vec3 F) (epsilon : F) : Ray F :=
  let tmp := (n.scale (n.dot r.direction)).scale (lit 2 0)
  let direction := r.direction.sub tmp
  { origin := hitPoint.add (direction.scale epsilon)
    direction := direction
    invDirection := recip3 direction
    tMin := Ray.defaultTMin
    t := Ray.defaultTMax
    signX := direction.x <. zero
    signY := direction.y <. zero
    signZ := direction.z <. zero }

/-- `Ray::is_valid` (src/ray.rs 207-209). -/
def Ray.isValid (r : Ray F) : Bool := r.t <. lit 1 33
/-- `Ray::get_point_at` (src/ray.rs 212-214). -/
def Ray.getPointAt (r : Ray F) (t : F) : Vec3 F := r.origin.add (Vec3.lscale t r.direction)
/-- `Ray::reset` (src/ray.rs 232-234). -/
def Ray.reset (r : Ray F) : Ray F := { r with t := Ray.defaultTMax }

/-- `RayPacket4` (src/ray.rs 47-61). -/
structure RayPacket4 (F : Type) where
  originX : Vec4 F
  originY : Vec4 F
  originZ : Vec4 F
  directionX : Vec4 F
  directionY : Vec4 F
  directionZ : Vec4 F
  invDirectionX : Vec4 F
  invDirectionY : Vec4 F
  invDirectionZ : Vec4 F
  t : Vec4 F
deriving DecidableEq, Repr

/-- `RayPacket4::new` (src/ray.rs 64-107).  The four origins/directions are `[Vec4; 4]`, lane `w` is ignored. -/
def RayPacket4.new (origins directions : Fin 4 → Vec4 F) : RayPacket4 F :=
  { originX := ⟨(origins 0).x, (origins 1).x, (origins 2).x, (origins 3).x⟩
    originY := ⟨(origins 0).y, (origins 1).y, (origins 2).y, (origins 3).y⟩
    originZ := ⟨(origins 0).z, (origins 1).z, (origins 2).z, (origins 3).z⟩
    directionX := ⟨(directions 0).x, (directions 1).x, (directions 2).x, (directions 3).x⟩
    directionY := ⟨(directions 0).y, (directions 1).y, (directions 2).y, (directions 3).y⟩
    directionZ := ⟨(directions 0).z, (directions 1).z, (directions 2).z, (directions 3).z⟩
    invDirectionX :=
      ⟨one /. (directions 0).x, one /. (directions 1).x, one /. (directions 2).x, one /. (directions 3).x⟩
    invDirectionY :=
      ⟨one /. (directions 0).y, one /. (directions 1).y, one /. (directions 2).y, one /. (directions 3).y⟩
    invDirectionZ :=
      ⟨one /. (directions 0).z, one /. (directions 1).z, one /. (directions 2).z, one /. (directions 3).z⟩
    t := Vec4.splat (lit 1 34) }

/-- `RayPacket4::ray` (src/ray.rs 118-148), for a lane index below 4. -/
def RayPacket4.ray (p : RayPacket4 F) (i : Fin 4) : Ray F :=
  let origin : Vec3 F := ⟨p.originX.get i, p.originY.get i, p.originZ.get i⟩
  let direction : Vec3 F := ⟨p.directionX.get i, p.directionY.get i, p.directionZ.get i⟩
  { origin := origin
    tMin := lit 1 (-4)
    direction := direction
    t := p.t.get i
    invDirection := recip3 direction
    signX := direction.x <. zero
    signY := direction.y <. zero
    signZ := direction.z <. zero }

/-- `RayPacket4::reset` (src/ray.rs 156-158). -/
def RayPacket4.reset (p : RayPacket4 F) : RayPacket4 F := { p with t := Vec4.splat Ray.defaultTMax }

end Rtbvh
