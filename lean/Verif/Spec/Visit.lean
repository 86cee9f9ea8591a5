import Verif.Spec.Tree
import Verif.Model.Iter
/- Specification of traversal on the mathematical tree: recursive, no stack. -/
namespace Rtbvh
variable {F σ τ ι : Type}

/-- First `a`, then (if it ran to its end) `k` from the ray `a` left. -/
def Run.andThen (a : Run σ ι) (k : σ → Run σ ι) : Run σ ι :=
  if a.ending = .finished then { k a.ray with items := a.items ++ (k a.ray).items } else a

/-- Hand the items to the caller one by one until he breaks. -/
def visitItems (cb : σ → ι → σ × Bool) : List ι → σ → Run σ ι
  | [], r => ⟨[], r, .finished⟩
  | x :: xs, r =>
    match cb r x with
    | (r', true) => ⟨[x], r', .stopped⟩
    | (r', false) => (visitItems cb xs r').cons x

/-- Specification of an ordered traversal: a leaf hands out its items; an interior node tests both children's boxes
against the current ray and descends into those that are hit, one after the other. -/
def BTree.visit (items : Nat → Nat → List ι) (hit : Aabb F → σ → Option τ) (closer : τ → τ → Bool)
    (cb : σ → ι → σ × Bool) : BTree F → σ → Run σ ι
  | .leaf _ f c, ray => visitItems cb (items f c) ray
  | .node _ l r, ray =>
    match hit l.bounds ray, hit r.bounds ray with
    | some tl, some tr =>
      if closer tl tr then (r.visit items hit closer cb ray).andThen (l.visit items hit closer cb)
      else (l.visit items hit closer cb ray).andThen (r.visit items hit closer cb)
    | some _, none => l.visit items hit closer cb ray
    | none, some _ => r.visit items hit closer cb ray
    | none, none => ⟨[], ray, .finished⟩

/-- The ids of the leaves all of whose ancestors-or-self below the root pass the test, from left to right. -/
def BTree.reach (idx : List Nat) (pass : Aabb F → Bool) : BTree F → List Nat
  | .leaf _ f c => rangeIds idx f c
  | .node _ l r => (if pass l.bounds then l.reach idx pass else []) ++ (if pass r.bounds then r.reach idx pass else [])

/-- Upper bound on the rounds of a traversal: one per interior node, one more than its size per leaf. -/
def BTree.rounds : BTree F → Nat
  | .leaf _ _ c => c + 1
  | .node _ l r => l.rounds + r.rounds + 1

/-- A well-formed BVH denoting the tree `T`: node 0 unfolds to `T` and leaf ranges lie inside the index array. -/
structure Bvh.Denotes (b : Bvh F) (T : BTree F) : Prop where
  unfolds : Unfolds b.nodes 0 T
  ranges : T.RangesIn b.primIndices

end Rtbvh
