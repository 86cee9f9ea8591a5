import Verif.Model.Binned
import Verif.Spec.Tree
/- Specification of the surface-area cost of a split, from the primitives of a node. -/
namespace Rtbvh
open FloatOps
variable {F : Type} [FloatOps F]

/-- The bin of primitive `p` on an axis, for a node with (padded) box `b`. -/
def binOf (ctx : BinnedCtx F) (b : Aabb F) (axis : Fin 3) (p : Nat) : Nat :=
  match ctx.centers[p]? with
  | some c => computeBinIndex c ctx.binCount (binOffset ctx b) (centerToBin ctx b) axis
  | none => 0

/-- The union of the boxes of some primitives. -/
def primsBox (ctx : BinnedCtx F) (ps : List Nat) : Aabb F :=
  (ps.filterMap fun p => ctx.aabbs[p]?).foldl Aabb.growBB Aabb.empty

/-- The union of the boxes of the primitives in the given bins, bin by bin. -/
def binsUnion (ctx : BinnedCtx F) (b : Aabb F) (axis : Fin 3) (slice : List Nat) (is : List Nat) : Aabb F :=
  (is.map fun i => primsBox ctx (slice.filter fun p => binOf ctx b axis p = i)).foldl Aabb.growBB Aabb.empty

/-- Surface-area cost of cutting the node's primitives before bin `k` of an axis:
(half area × number of primitives) left plus right. -/
def sahCost (ctx : BinnedCtx F) (b : Aabb F) (slice : List Nat) (axis : Fin 3) (k : Nat) : F :=
  (binsUnion ctx b axis slice (List.range k)).halfArea *.
      ofNat (slice.filter fun p => binOf ctx b axis p < k).length +.
    (binsUnion ctx b axis slice (List.range' k (ctx.binCount - k)).reverse).halfArea *.
      ofNat (slice.filter fun p => k ≤ binOf ctx b axis p).length

/-- Cost of keeping the node as a leaf. -/
def leafCost (ctx : BinnedCtx F) (b : Aabb F) (n : Nat) : F := b.halfArea *. (ofNat n -. ctx.traversalCost)

/-- A cut that pays off: between two bins, of finite cost, and below the cost of a leaf. -/
def PaysOff (ctx : BinnedCtx F) (b : Aabb F) (slice : List Nat) (axis : Fin 3) (k : Nat) : Prop :=
  1 ≤ k ∧ k < ctx.binCount ∧ (sahCost ctx b slice axis k <. maxFinite) = true ∧
    (leafCost ctx b slice.length <=. sahCost ctx b slice axis k) = false

/-- A cut that pays off and than which no other cut is cheaper. -/
def Cheapest (ctx : BinnedCtx F) (b : Aabb F) (slice : List Nat) (axis : Fin 3) (k : Nat) : Prop :=
  PaysOff ctx b slice axis k ∧ ∀ axis' k', 1 ≤ k' → k' < ctx.binCount →
    (sahCost ctx b slice axis' k' <. sahCost ctx b slice axis k) = false

/-- Number of primitives in bins below `k`. -/
def below (ctx : BinnedCtx F) (b : Aabb F) (slice : List Nat) (axis : Fin 3) (k : Nat) : Nat :=
  (slice.filter fun p => binOf ctx b axis p < k).length

/-- The fallback: the first cut along the longest axis with more than two fifths of the primitives on its left, if there
is one. -/
def Median (ctx : BinnedCtx F) (b : Aabb F) (slice : List Nat) (axis : Fin 3) (k : Nat) : Prop :=
  axis = b.longestAxis ∧
    (1 ≤ k ∧ k < ctx.binCount ∧ slice.length * 2 / 5 < below ctx b slice axis k ∧
        below ctx b slice axis (k - 1) ≤ slice.length * 2 / 5 ∨
      ∀ k' < ctx.binCount, below ctx b slice axis k' ≤ slice.length * 2 / 5)

/-- How a node is to be cut: at the cheapest cut if any pays off; at the median if none does and the node holds more
than `max_leaf_size` primitives. -/
def SahCut (ctx : BinnedCtx F) (b : Aabb F) (slice : List Nat) (axis : Fin 3) (k : Nat) : Prop :=
  Cheapest ctx b slice axis k ∨
    (∀ axis' k', ¬ PaysOff ctx b slice axis' k') ∧ ctx.maxLeafSize < slice.length ∧ Median ctx b slice axis k

/-- A tree cut by the surface-area rule at every node, down to depth `max_depth`.  An interior node has its
primitives in the bins below the cut on the left and the others on the right; a leaf has at most one primitive, or
maximal depth, or no cut that pays off (and at most `max_leaf_size` primitives), or all primitives on one side of its
cut.  The box an interior node is binned with is the one stored in it; a leaf's has been padded once more.
(`slice`: the node's primitives in the order in which their boxes are united.) -/
def SahTree (ctx : BinnedCtx F) (idx : List Nat) : Nat → BTree F → Prop
  | d, .leaf b f c => ∃ b0 slice, b = (pad b0).clean ∧ slice.Perm (BTree.rangeIds idx f c) ∧
      (slice.length ≤ 1 ∨ d = ctx.maxDepth ∨ ((∀ axis k, ¬ PaysOff ctx b0 slice axis k) ∧ slice.length ≤ ctx.maxLeafSize) ∨
        ∃ axis k, SahCut ctx b0 slice axis k ∧
          ((∀ p ∈ slice, binOf ctx b0 axis p < k) ∨ (∀ p ∈ slice, k ≤ binOf ctx b0 axis p)))
  | d, .node b l r => (d < ctx.maxDepth ∧ ∃ slice axis k, slice.Perm (l.ids idx ++ r.ids idx) ∧ 1 < slice.length ∧
        SahCut ctx b slice axis k ∧ l.ids idx ≠ [] ∧ r.ids idx ≠ [] ∧
        (∀ p ∈ l.ids idx, binOf ctx b axis p < k) ∧ (∀ p ∈ r.ids idx, k ≤ binOf ctx b axis p)) ∧
      SahTree ctx idx (d + 1) l ∧ SahTree ctx idx (d + 1) r

/-- The cheapest cut along one axis; `bin_count` if no cut has finite cost. -/
def AxisBest (ctx : BinnedCtx F) (b : Aabb F) (slice : List Nat) (axis : Fin 3) (k : Nat) : Prop :=
  k = ctx.binCount ∧ (∀ k', 1 ≤ k' → k' < ctx.binCount → (sahCost ctx b slice axis k' <. maxFinite) = false) ∨
    1 ≤ k ∧ k < ctx.binCount ∧ (sahCost ctx b slice axis k <. maxFinite) = true ∧
      ∀ k', 1 ≤ k' → k' < ctx.binCount → (sahCost ctx b slice axis k' <. sahCost ctx b slice axis k) = false

/-- Primitive `p` falls between the two stools of a node: no cut pays off, the node is too large for a leaf, and on the
longest axis the primitive's bin is at or past the cheapest cut but before the median cut. -/
def Misplaced (ctx : BinnedCtx F) (b : Aabb F) (slice : List Nat) (p : Nat) : Prop :=
  (∀ axis k, ¬ PaysOff ctx b slice axis k) ∧ ctx.maxLeafSize < slice.length ∧
    ∃ k lc, Median ctx b slice b.longestAxis k ∧ AxisBest ctx b slice b.longestAxis lc ∧
      lc ≤ binOf ctx b b.longestAxis p ∧ binOf ctx b b.longestAxis p < k

/-- Some interior node above primitive `p` misplaces it.  (`slice`: the node's primitives in the order in which their
boxes are united.) -/
def BTree.Misplaces (ctx : BinnedCtx F) (idx : List Nat) (p : Nat) : BTree F → Prop
  | .leaf _ _ _ => False
  | .node b l r => (p ∈ l.ids idx ∧ ∃ slice, slice.Perm (l.ids idx ++ r.ids idx) ∧ Misplaced ctx b slice p) ∨
      BTree.Misplaces ctx idx p l ∨ BTree.Misplaces ctx idx p r

/-- The tree has a leaf at depth `d` that lists the ids `ids`. -/
inductive BTree.HasLeaf (idx : List Nat) : BTree F → Nat → List Nat → Prop
  | leaf {b f c} : HasLeaf idx (.leaf b f c) 0 (BTree.rangeIds idx f c)
  | left {b l r d ids} (h : HasLeaf idx l d ids) : HasLeaf idx (.node b l r) (d + 1) ids
  | right {b l r d ids} (h : HasLeaf idx r d ids) : HasLeaf idx (.node b l r) (d + 1) ids

end Rtbvh
