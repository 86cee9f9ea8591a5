import Verif.Spec.Bounded
/- Specification vocabulary for the clustering builder. -/
namespace Rtbvh
variable {F : Type} [FloatOps F]
open FloatOps

/-- The half area of a box can be computed without overflow. -/
structure Aabb.AreaOk (w : Aabb F) : Prop where
  min : w.min.Finite
  max : w.max.Finite
  diagonal : w.diagonal.Finite
  sum : Fin' (w.diagonal.x +. w.diagonal.y)
  area : (w.halfArea <. (maxFinite : F)) = true

/-- A scene the clustering builder can handle: every box has `min <= max` and, padded by `1e-4`, lies in a box `w`
whose half area does not overflow. -/
def LocScene (w : Aabb F) (boxes : List (Aabb F)) : Prop :=
  w.AreaOk ∧ ∀ a ∈ boxes, a.Valid ∧ (a.offsetBy (lit 1 (-4))).Within w

end Rtbvh
