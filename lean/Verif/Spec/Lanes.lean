import Verif.Model.Ray
/- Specification vocabulary: one lane of a packet, by itself. -/
namespace Rtbvh
variable {F : Type}

/-- The packet whose four lanes are all copies of lane `i` of `p`. -/
def RayPacket4.only (p : RayPacket4 F) (i : Fin 4) : RayPacket4 F where
  originX := Vec4.splat (p.originX.get i)
  originY := Vec4.splat (p.originY.get i)
  originZ := Vec4.splat (p.originZ.get i)
  directionX := Vec4.splat (p.directionX.get i)
  directionY := Vec4.splat (p.directionY.get i)
  directionZ := Vec4.splat (p.directionZ.get i)
  invDirectionX := Vec4.splat (p.invDirectionX.get i)
  invDirectionY := Vec4.splat (p.invDirectionY.get i)
  invDirectionZ := Vec4.splat (p.invDirectionZ.get i)
  t := Vec4.splat (p.t.get i)

end Rtbvh
