import Verif.Spec.Spatial
import Verif.Spec.Box
import Verif.Spec.Quad
/- Specification vocabulary: a path of boxes with some property (for example: they contain a point) down to a leaf that
lists a primitive. -/
namespace Rtbvh
variable {F : Type} [FloatOps F]

/-- Some leaf lists primitive `p`, and its box and all boxes above it have the property `P`. -/
def BTree.Reaches (idx : List Nat) (p : Nat) (P : Aabb F → Prop) : BTree F → Prop
  | .leaf b f c => P b ∧ p ∈ rangeIds idx f c
  | .node b l r => P b ∧ (l.Reaches idx p P ∨ r.Reaches idx p P)

/-- The same for trees with ids in their leaves. -/
def IdTree.Reaches (p : Nat) (P : Aabb F → Prop) : IdTree F → Prop
  | .leaf b ids => P b ∧ p ∈ ids
  | .node b l r => P b ∧ (l.Reaches p P ∨ r.Reaches p P)

/-- The same for four-wide trees; the root has no box. -/
def QTree.Reaches (idx : List Nat) (p : Nat) (P : Aabb F → Prop) : QTree F → Prop
  | .none => False
  | .leaf f c => p ∈ BTree.rangeIds idx f c
  | .quad b c0 c1 c2 c3 => P (b.get 0) ∧ c0.Reaches idx p P ∨ P (b.get 1) ∧ c1.Reaches idx p P ∨
      P (b.get 2) ∧ c2.Reaches idx p P ∨ P (b.get 3) ∧ c3.Reaches idx p P

/-- The provided `split` of a primitive keeps `P` (for example: never loses a point): whatever the plane, one of the two
boxes has it. -/
def SplitKeeps (split : Fin 3 → F → Aabb F × Aabb F) (P : Aabb F → Prop) : Prop :=
  ∀ a pos, P (split a pos).1 ∨ P (split a pos).2

/-- A property of boxes that larger boxes inherit, and the common part of two boxes with it has it too.  Containing a
given point is one. -/
structure BoxFilter (P : Aabb F → Prop) : Prop where
  mono : ∀ {a b : Aabb F}, a.Within b → P a → P b
  inter : ∀ {a b : Aabb F}, P a → P b → P (a.shrink b)

end Rtbvh
