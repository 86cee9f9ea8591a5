import Verif.Spec.Box
/- Specification vocabulary for ray/box tests. -/
namespace Rtbvh
variable {F : Type} [FloatOps F]

/-- The six products `(bound - origin) * inv_direction` that every ray/box test of the crate starts from are numbers
(no NaN, i.e. no `0 * inf` and no `inf - inf`). -/
def Aabb.NoNaN (a : Aabb F) (origin inv : Vec3 F) : Prop :=
  Num ((a.min.x -. origin.x) *. inv.x) ∧ Num ((a.max.x -. origin.x) *. inv.x) ∧
  Num ((a.min.y -. origin.y) *. inv.y) ∧ Num ((a.max.y -. origin.y) *. inv.y) ∧
  Num ((a.min.z -. origin.z) *. inv.z) ∧ Num ((a.max.z -. origin.z) *. inv.z)

/-- The stored sign bits agree with the reciprocal direction: sign 0 with `inv >= 0`, sign 1 with `inv <= 0`. -/
def Ray.Coherent (r : Ray F) : Prop :=
  (if r.signX then (r.invDirection.x <=. FloatOps.zero) = true else (FloatOps.zero <=. r.invDirection.x) = true) ∧
  (if r.signY then (r.invDirection.y <=. FloatOps.zero) = true else (FloatOps.zero <=. r.invDirection.y) = true) ∧
  (if r.signZ then (r.invDirection.z <=. FloatOps.zero) = true else (FloatOps.zero <=. r.invDirection.z) = true)

/-- Lane `i` of a packet's origins. -/
def RayPacket4.originOf (p : RayPacket4 F) (i : Fin 4) : Vec3 F := ⟨p.originX.get i, p.originY.get i, p.originZ.get i⟩
/-- Lane `i` of a packet's reciprocal directions. -/
def RayPacket4.invOf (p : RayPacket4 F) (i : Fin 4) : Vec3 F :=
  ⟨p.invDirectionX.get i, p.invDirectionY.get i, p.invDirectionZ.get i⟩

/-- The derived fields are those every constructor of `Ray` computes from the direction; `t` and `t_min` are free. -/
def Ray.WellFormed (r : Ray F) : Prop :=
  r.invDirection = recip3 r.direction ∧ r.signX = (r.direction.x <. FloatOps.zero) ∧
  r.signY = (r.direction.y <. FloatOps.zero) ∧ r.signZ = (r.direction.z <. FloatOps.zero)

end Rtbvh
