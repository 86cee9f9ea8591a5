import Verif.Model.Spatial
import Verif.Spec.Tree
import Verif.Spec.Build
/- Specification vocabulary for the spatial builder. -/
namespace Rtbvh
variable {F : Type}

/-- A bounding volume hierarchy whose leaves hold the list of primitive ids themselves, not a range of an index array. -/
inductive IdTree (F : Type)
  | leaf (bounds : Aabb F) (ids : List Nat)
  | node (bounds : Aabb F) (left right : IdTree F)
deriving DecidableEq

namespace IdTree
/-- The ids below a tree, left to right. -/
def ids : IdTree F → List Nat
  | leaf _ l => l
  | node _ l r => l.ids ++ r.ids
/-- Number of edges on the longest path to a leaf. -/
def depth : IdTree F → Nat
  | leaf _ _ => 0
  | node _ l r => max l.depth r.depth + 1
/-- Number of nodes. -/
def size : IdTree F → Nat
  | leaf _ _ => 1
  | node _ l r => l.size + r.size + 1
/-- The box stored at the root. -/
def bounds : IdTree F → Aabb F
  | leaf b _ => b
  | node b _ _ => b
end IdTree

/-- Forget where in the index array the leaves' ids are stored. -/
def BTree.withIds (idx : List Nat) : BTree F → IdTree F
  | .leaf b f c => .leaf b (rangeIds idx f c)
  | .node b l r => .node b (l.withIds idx) (r.withIds idx)

/-- Leaf ranges do not overlap. -/
def Disjoint2 (a b : Nat × Nat) : Prop := a.1 + a.2 ≤ b.1 ∨ b.1 + b.2 ≤ a.1

/-- The sorting function returns permutations: what the standard library promises for any comparator. -/
def SpatialCtx.Sorts (ctx : SpatialCtx F) : Prop := ∀ a l l', ctx.sort a l = some l' → l'.Perm l

/-- Every choice of the schedule names a pending task. -/
def SpatialLegal [FloatOps F] (ctx : SpatialCtx F) (thr : F) : List Nat → SpatialState F → Prop
  | [], _ => True
  | k :: ks, s => k < s.pending.length ∧ ∀ s', spatialStep ctx thr s k = .ok s' → SpatialLegal ctx thr ks s'

/-- Size of the index array of a spatial build: `n + (n as f32 * 0.75) as usize`. -/
def referenceLimit (F : Type) [FloatOps F] (n : Nat) : Nat := n + FloatOps.toNat (FloatOps.mul (FloatOps.ofNat (F := F) n) (FloatOps.lit 75 (-2)))

/-- A legal use of `construct_spatial_sah`: as for the other builders, few enough primitives that the node links fit an
`i32`, and `sort_by` returns a permutation of its slice or panics. -/
structure Builder.LegalSpatial [FloatOps F] (b : Builder F) (order : List Nat)
    (sort : Fin 3 → List (Ref F) → Option (List (Ref F))) : Prop extends b.Legal order where
  fits : referenceLimit F b.primitives.length < 2 ^ 30
  sorts : ∀ a l l', sort a l = some l' → l'.Perm l

/-- `ks` is a possible thread schedule: every choice names a task that is pending then. -/
def Builder.SpatialSchedule [FloatOps F] (b : Builder F) (split : Nat → Fin 3 → F → Aabb F × Aabb F)
    (sort : Fin 3 → List (Ref F) → Option (List (Ref F))) (order ks : List Nat) : Prop :=
  let ctx := SpatialCtx.new (b.boxes order) (b.primitives.zipIdx.map fun (p, i) => ⟨p.center, split i⟩) b.primitivesPerLeaf sort
  SpatialLegal ctx (spatialThreshold ctx) ks (spatialInit ctx)

end Rtbvh
