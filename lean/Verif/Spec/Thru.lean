import Verif.Spec.Bounded
/- Specification vocabulary: a computed ray parameter lies in the computed interval of every slab of a box. -/
namespace Rtbvh
variable {F : Type} [FloatOps F]

/-- `T` lies between the computed parameters of the two planes of a slab, in the order the direction passes them. -/
def ThruAxis (o inv T lo hi : F) : Prop :=
  ((FloatOps.zero <=. inv) = true ∧ ((lo -. o) *. inv <=. T) = true ∧ (T <=. (hi -. o) *. inv) = true) ∨
  ((inv <=. FloatOps.zero) = true ∧ ((hi -. o) *. inv <=. T) = true ∧ (T <=. (lo -. o) *. inv) = true)

/-- `T` lies in the computed intervals of all three slabs. -/
def Aabb.Thru (a : Aabb F) (o inv : Vec3 F) (T : F) : Prop :=
  ThruAxis o.x inv.x T a.min.x a.max.x ∧ ThruAxis o.y inv.y T a.min.y a.max.y ∧ ThruAxis o.z inv.z T a.min.z a.max.z

end Rtbvh
