import Verif.Spec.Visit
import Verif.Model.Mbvh
/- Specification vocabulary for 4-wide trees: what tree a quad-node array denotes, and its traversal. -/
namespace Rtbvh
variable {F σ ι : Type}

/-- A 4-wide hierarchy: a quad node has four slots, each with a box and a content: nothing, a leaf range of the index
array, or another quad node. -/
inductive QTree (F : Type)
  | none
  | leaf (first count : Nat)
  | quad (b : Vec4 (Aabb F)) (c0 c1 c2 c3 : QTree F)

/-- `QSlot nodes child count Q`: a slot with these two public fields denotes the content `Q` in the array `nodes`. -/
inductive QSlot (nodes : List (MbvhNode F)) : Int → Int → QTree F → Prop
  | none {child count : Int} (hc : count < 0) (h : child < 0) : QSlot nodes child count .none
  | leaf {child count : Int} {f c : Nat} (hc : count = (c : Int)) (hf : child = (f : Int)) :
      QSlot nodes child count (.leaf f c)
  | quad {child count : Int} {i : Nat} {m : MbvhNode F} {c0 c1 c2 c3 : QTree F} (hc : count < 0)
      (hi : child = (i : Int)) (h : nodes[i]? = some m)
      (h0 : QSlot nodes (m.children.get 0) (m.counts.get 0) c0) (h1 : QSlot nodes (m.children.get 1) (m.counts.get 1) c1)
      (h2 : QSlot nodes (m.children.get 2) (m.counts.get 2) c2)
      (h3 : QSlot nodes (m.children.get 3) (m.counts.get 3) c3) :
      QSlot nodes child count (.quad m.boxes c0 c1 c2 c3)

namespace QTree
/-- Content of slot `i` of a quad node. -/
def kid (c0 c1 c2 c3 : QTree F) (i : Fin 4) : QTree F :=
  match i with
  | 0 => c0
  | 1 => c1
  | 2 => c2
  | 3 => c3
/-- Leaf ranges, slot by slot. -/
def ranges : QTree F → List (Nat × Nat)
  | none => []
  | leaf f c => [(f, c)]
  | quad _ c0 c1 c2 c3 => c0.ranges ++ c1.ranges ++ c2.ranges ++ c3.ranges
/-- The primitive ids stored below, slot by slot, for a given index array. -/
def ids (idx : List Nat) : QTree F → List Nat
  | none => []
  | leaf f c => BTree.rangeIds idx f c
  | quad _ c0 c1 c2 c3 => c0.ids idx ++ c1.ids idx ++ c2.ids idx ++ c3.ids idx
/-- Every leaf range lies inside the index array. -/
def RangesIn (idx : List Nat) : QTree F → Prop
  | none => True
  | leaf f c => f + c ≤ idx.length
  | quad _ c0 c1 c2 c3 => c0.RangesIn idx ∧ c1.RangesIn idx ∧ c2.RangesIn idx ∧ c3.RangesIn idx
/-- Number of quad nodes. -/
def quads : QTree F → Nat
  | none => 0
  | leaf _ _ => 0
  | quad _ c0 c1 c2 c3 => c0.quads + c1.quads + c2.quads + c3.quads + 1
/-- Is the content a quad node? -/
def isQuad : QTree F → Bool
  | quad .. => true
  | _ => false
/-- Number of edges from the root quad node down to the deepest quad node. -/
def depth : QTree F → Nat
  | none => 0
  | leaf _ _ => 0
  | quad _ c0 c1 c2 c3 =>
    let d := fun (c : QTree F) (n : Nat) => if c.isQuad then n + 1 else 0
    max (max (d c0 c0.depth) (d c1 c1.depth)) (max (d c2 c2.depth) (d c3 c3.depth))
/-- How many stack entries the ordered traversal can need below a quad node: it pushes all quad nodes among the four
slots at once and then pops one of them at a time. -/
def stackNeed : QTree F → Nat
  | none => 0
  | leaf _ _ => 0
  | quad _ c0 c1 c2 c3 =>
    let n := (if c0.isQuad then 1 else 0) + (if c1.isQuad then 1 else 0) + (if c2.isQuad then 1 else 0) +
      (if c3.isQuad then 1 else 0)
    let d := fun (c : QTree F) (m : Nat) => if c.isQuad then n - 1 + max 1 m else 0
    max (max (d c0 c0.stackNeed) (d c1 c1.stackNeed)) (max (d c2 c2.stackNeed) (d c3 c3.stackNeed))
/-- `P box ids` holds for every slot, for its box and the ids stored below it. -/
def Forall (idx : List Nat) (P : Aabb F → List Nat → Prop) : QTree F → Prop
  | none => True
  | leaf _ _ => True
  | quad b c0 c1 c2 c3 =>
    (P (b.get 0) (c0.ids idx) ∧ P (b.get 1) (c1.ids idx) ∧ P (b.get 2) (c2.ids idx) ∧ P (b.get 3) (c3.ids idx)) ∧
    c0.Forall idx P ∧ c1.Forall idx P ∧ c2.Forall idx P ∧ c3.Forall idx P
/-- Upper bound on the rounds of a traversal: per quad node, one for the pop, four for the slots, one per stored id. -/
def rounds : QTree F → Nat
  | none => 0
  | leaf _ c => c
  | quad _ c0 c1 c2 c3 => c0.rounds + c1.rounds + c2.rounds + c3.rounds + 5

/-- Run the computations `k i` for the given slots one after the other. -/
def inOrder (k : Fin 4 → σ → Run σ ι) : List (Fin 4) → σ → Run σ ι
  | [], r => ⟨[], r, .finished⟩
  | i :: is, r => (k i r).andThen (inOrder k is)

/-- Hand out the items of a leaf; nothing for other contents. -/
def giveLeaf (items : Nat → Nat → List ι) (cb : σ → ι → σ × Bool) (c : QTree F) (r : σ) : Run σ ι :=
  match c with
  | .leaf f n => visitItems cb (items f n) r
  | _ => ⟨[], r, .finished⟩

/-- Specification of the ordered traversal of a 4-wide tree: test the four slot boxes with the ray at arrival; hand out
the leaves of the slots that are hit, last id first; then descend into the hit quad nodes, first id first. -/
def visit (items : Nat → Nat → List ι) (hit : Vec4 (Aabb F) → σ → MbvhHit) (cb : σ → ι → σ × Bool) :
    QTree F → σ → Run σ ι
  | none, r => ⟨[], r, .finished⟩
  | leaf _ _, r => ⟨[], r, .finished⟩
  | quad b c0 c1 c2 c3, r =>
    let h := hit b r
    let v0 := c0.visit items hit cb
    let v1 := c1.visit items hit cb
    let v2 := c2.visit items hit cb
    let v3 := c3.visit items hit cb
    let descend : Fin 4 → σ → Run σ ι := fun i => match i with | 0 => v0 | 1 => v1 | 2 => v2 | 3 => v3
    let gate : (Fin 4 → σ → Run σ ι) → Fin 4 → σ → Run σ ι :=
      fun k i r => if h.result.get i then k i r else ⟨[], r, .finished⟩
    (inOrder (gate fun i => giveLeaf items cb (kid c0 c1 c2 c3 i))
        [h.ids.get 3, h.ids.get 2, h.ids.get 1, h.ids.get 0] r).andThen
      (inOrder (gate descend) [h.ids.get 0, h.ids.get 1, h.ids.get 2, h.ids.get 3])

/-- The ids of the leaf slots all of whose ancestor-or-self slots pass the test, slot by slot. -/
def reach (idx : List Nat) (pass : Aabb F → Bool) : QTree F → List Nat
  | none => []
  | leaf f c => BTree.rangeIds idx f c
  | quad b c0 c1 c2 c3 =>
    (if pass (b.get 0) then c0.reach idx pass else []) ++ (if pass (b.get 1) then c1.reach idx pass else []) ++
    (if pass (b.get 2) then c2.reach idx pass else []) ++ (if pass (b.get 3) then c3.reach idx pass else [])
end QTree

/-- A well-formed `Mbvh` denoting the tree `Q`: quad node 0 unfolds to `Q` and leaf ranges lie inside the index
array. -/
structure Mbvh.Denotes (b : Mbvh F) (Q : QTree F) : Prop where
  unfolds : QSlot b.mNodes 0 (-1) Q
  ranges : Q.RangesIn b.primIndices

end Rtbvh
