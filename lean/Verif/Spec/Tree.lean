import Verif.Model.Node
/-
Specification vocabulary: what tree a node array denotes.  Independent of the builders.
-/
namespace Rtbvh
variable {F : Type}

/-- A binary bounding volume hierarchy as a mathematical tree: leaves hold a range `first .. first+count` of the
primitive index array. -/
inductive BTree (F : Type)
  | leaf (bounds : Aabb F) (first count : Nat)
  | node (bounds : Aabb F) (left right : BTree F)
deriving DecidableEq

/-- A box without the node encoding hidden in its two extra fields. -/
def Aabb.clean (a : Aabb F) : Aabb F := { a with extra1 := 0, extra2 := 0 }

/-- `Unfolds nodes i t`: starting at index `i`, the node array denotes the tree `t`, reading the public encoding
(non-negative count: leaf with `left_first` the start of its range; negative count and non-negative left_first:
interior node with children at `left_first` and `left_first + 1`). -/
inductive Unfolds (nodes : List (BvhNode F)) : Nat → BTree F → Prop
  | leaf {i first count : Nat} {nd : BvhNode F} (h : nodes[i]? = some nd)
      (hc : nd.bounds.extra1 = (count : Int)) (hf : nd.bounds.extra2 = (first : Int)) :
      Unfolds nodes i (.leaf nd.bounds.clean first count)
  | node {i left : Nat} {nd : BvhNode F} {l r : BTree F} (h : nodes[i]? = some nd)
      (hc : nd.bounds.extra1 < 0) (hl : nd.bounds.extra2 = (left : Int))
      (ul : Unfolds nodes left l) (ur : Unfolds nodes (left + 1) r) :
      Unfolds nodes i (.node nd.bounds.clean l r)

namespace BTree
/-- The box stored at the root of a tree. -/
def bounds : BTree F → Aabb F
  | leaf b _ _ => b
  | node b _ _ => b
/-- Leaf ranges from left to right. -/
def ranges : BTree F → List (Nat × Nat)
  | leaf _ f c => [(f, c)]
  | node _ l r => l.ranges ++ r.ranges
/-- Depth: number of edges on the longest path to a leaf. -/
def depth : BTree F → Nat
  | leaf _ _ _ => 0
  | node _ l r => max l.depth r.depth + 1
/-- Number of nodes. -/
def size : BTree F → Nat
  | leaf _ _ _ => 1
  | node _ l r => l.size + r.size + 1
/-- Number of leaves. -/
def leaves : BTree F → Nat
  | leaf _ _ _ => 1
  | node _ l r => l.leaves + r.leaves
/-- The primitive ids stored below a tree, left to right, for a given index array.  `none` if a range exceeds it. -/
def rangeIds (idx : List Nat) (f c : Nat) : List Nat := (idx.drop f).take c
/-- The primitive ids stored below a tree, left to right, for a given index array. -/
def ids (idx : List Nat) : BTree F → List Nat
  | leaf _ f c => rangeIds idx f c
  | node _ l r => l.ids idx ++ r.ids idx
/-- Every leaf range lies inside the index array. -/
def RangesIn (idx : List Nat) : BTree F → Prop
  | leaf _ f c => f + c ≤ idx.length
  | node _ l r => l.RangesIn idx ∧ r.RangesIn idx
/-- `P b ids` holds at every node, for its box and the primitive ids below it. -/
def Forall (idx : List Nat) (P : Aabb F → List Nat → Prop) : BTree F → Prop
  | leaf b f c => P b (rangeIds idx f c)
  | node b l r => P b (l.ids idx ++ r.ids idx) ∧ l.Forall idx P ∧ r.Forall idx P
end BTree

end Rtbvh
