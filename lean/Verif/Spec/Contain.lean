import Verif.Spec.Bounded
import Verif.Spec.Build
/- Specification vocabulary: which boxes belong to the primitives of a build. -/
namespace Rtbvh
variable {F : Type} [FloatOps F]

/-- The box of primitive `p` in a list of boxes, one per primitive. -/
def boxAt (l : List (Aabb F)) (p : Nat) : Aabb F := l.getD p Aabb.new

/-- The box of primitive `p`, padded by 1e-4 on all sides. -/
def padAt (l : List (Aabb F)) (p : Nat) : Aabb F := (boxAt l p).offsetBy (FloatOps.lit 1 (-4))

/-- Every *right* child's box contains the boxes of the primitives below it. -/
def BTree.RightBounds (idx : List Nat) (boxes : Nat → Aabb F) : BTree F → Prop
  | .leaf _ _ _ => True
  | .node _ l r => (∀ p ∈ r.ids idx, (boxes p).Within r.bounds) ∧ l.RightBounds idx boxes ∧ r.RightBounds idx boxes

end Rtbvh
