import Verif.Spec.Visit
import Verif.Spec.Slab
/- "Bounds contain their primitives", on the tree a BVH denotes. -/
namespace Rtbvh
variable {F : Type} [FloatOps F]

/-- Every node's box contains the box of every primitive below that node (`boxes p` is the box of primitive `p`). -/
def BTree.Bounds (T : BTree F) (idx : List Nat) (boxes : Nat → Aabb F) : Prop :=
  T.Forall idx fun a ids => ∀ p ∈ ids, (boxes p).Within a

/-- Every node's box gives numbers, not NaN, in the ray/box test for this origin and reciprocal direction. -/
def BTree.NoNaN (T : BTree F) (idx : List Nat) (origin inv : Vec3 F) : Prop :=
  T.Forall idx fun a _ => a.NoNaN origin inv

/-- Finite lanes. -/
def Vec3.Finite (v : Vec3 F) : Prop := Fin' v.x ∧ Fin' v.y ∧ Fin' v.z
/-- `a` is a non-zero number. -/
def NonZero (a : F) : Prop := (a <. FloatOps.zero) = true ∨ (FloatOps.zero <. a) = true
/-- Every lane is a non-zero number. -/
def Vec3.NonZero (v : Vec3 F) : Prop := Rtbvh.NonZero v.x ∧ Rtbvh.NonZero v.y ∧ Rtbvh.NonZero v.z

end Rtbvh
