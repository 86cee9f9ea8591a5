import Verif.Model.Builder
import Verif.Spec.Schedule
import Verif.Spec.Tree
/- Specification vocabulary: legal uses of the `Builder`. -/
namespace Rtbvh
variable {F : Type}

/-- A legal use of a builder: at least one primitive, boxes (if given) one per primitive, and few enough primitives
that node indices fit the `i32` fields of a node.  `order` is the order in which `par_bridge` delivers the boxes. -/
structure Builder.Legal (b : Builder F) (order : List Nat) : Prop where
  nonempty : b.primitives ≠ []
  boxes : ∀ l, b.aabbs = some l → l.length = b.primitives.length
  order : order.Perm (List.range b.primitives.length)
  small : b.primitives.length ≤ 2 ^ 30

/-- The boxes the build algorithm works on. -/
def Builder.boxes (b : Builder F) (order : List Nat) : List (Aabb F) :=
  b.aabbs.getD (collectAabbs order b.primitives)

/-- The BVH of a finished build, if there is one. -/
def built {ε α : Type} : Except ε (Option (Option α)) → Option α
  | .ok (some (some a)) => some a
  | _ => none

theorem built_some {ε α : Type} {r : Except ε (Option (Option α))} {a : α} (h : built r = some a) :
    r = .ok (some (some a)) := by
  unfold built at h
  split at h
  · cases h; rfl
  · cases h

variable [FloatOps F]

/-- The context of the binned build. -/
def Builder.ctx (b : Builder F) (order : List Nat) : BinnedCtx F :=
  BinnedCtx.new (b.boxes order) (b.primitives.map Prim.center) b.primitivesPerLeaf

/-- `ks` is a possible thread schedule of the binned build: every choice names a task that is pending then. -/
def Builder.Schedule (b : Builder F) (order ks : List Nat) : Prop :=
  LegalSchedule (b.ctx order) ks (binnedInit (b.ctx order))

end Rtbvh
