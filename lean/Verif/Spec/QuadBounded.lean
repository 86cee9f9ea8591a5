import Verif.Spec.Quad
import Verif.Spec.Bounded
/- "Bounds contain their primitives" on 4-wide trees, and callers that only shorten the ray. -/
namespace Rtbvh
variable {F : Type} [FloatOps F]

/-- The box of every slot contains the box of every primitive stored through that slot. -/
def QTree.Bounds (Q : QTree F) (idx : List Nat) (boxes : Nat → Aabb F) : Prop :=
  Q.Forall idx fun a ids => ∀ p ∈ ids, (boxes p).Within a

/-- The box of every slot with something stored below it gives numbers, not NaN, in the ray/box test. -/
def QTree.NoNaN (Q : QTree F) (idx : List Nat) (origin inv : Vec3 F) : Prop :=
  Q.Forall idx fun a ids => ids ≠ [] → a.NoNaN origin inv

/-- `r'` is `r` after a caller changed nothing but `t`, and that only downwards. -/
def Ray.Lowered (r r' : Ray F) : Prop :=
  (∃ t, r' = { r with t := t }) ∧ (r'.t = r.t ∨ (r'.t <=. r.t) = true)

/-- What the builders return, as far as `Mbvh` cares: the nodes form a tree without spare nodes, a BVH that is a single
leaf starts at index 0, and sizes fit the `i32` fields. -/
structure Bvh.Compact {F : Type} (b : Bvh F) (T : BTree F) : Prop extends b.Denotes T where
  size : T.size = b.nodes.length
  first : ∀ bb f c, T = .leaf bb f c → f = 0
  smallNodes : b.nodes.length < 2 ^ 31
  smallIndices : b.indices.length < 2 ^ 31

end Rtbvh
