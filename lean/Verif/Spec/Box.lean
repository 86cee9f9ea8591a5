import Verif.Model.Aabb
import Verif.Spec.Lawful
/- Specification vocabulary for boxes, independent of the code: lane-wise order, containment, NaN-freeness. -/
namespace Rtbvh
variable {F : Type} [FloatOps F]

/-- All three lanes are numbers. -/
def Vec3.Numeric (v : Vec3 F) : Prop := Num v.x ∧ Num v.y ∧ Num v.z
/-- Lane-wise `≤`. -/
def Vec3.Le (a b : Vec3 F) : Prop := (a.x <=. b.x) = true ∧ (a.y <=. b.y) = true ∧ (a.z <=. b.z) = true
/-- All six bounds are numbers (possibly infinite). -/
def Aabb.Numeric (a : Aabb F) : Prop := a.min.Numeric ∧ a.max.Numeric
/-- The closed box contains the point. -/
def Aabb.Has (a : Aabb F) (p : Vec3 F) : Prop := a.min.Le p ∧ p.Le a.max
/-- `a` lies in `b`: each bound of `a` is inside the corresponding bound of `b`. -/
def Aabb.Within (a b : Aabb F) : Prop := b.min.Le a.min ∧ a.max.Le b.max
/-- Same bounds, numerically (the two zeros are equal). -/
def Aabb.Same (a b : Aabb F) : Prop := a.Within b ∧ b.Within a
/-- `min <= max` on every axis. -/
def Aabb.Valid (a : Aabb F) : Prop := a.min.Le a.max

end Rtbvh
