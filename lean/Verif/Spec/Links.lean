import Verif.Spec.Tree
/- Specification vocabulary: link discipline of a node array. -/
namespace Rtbvh
variable {F : Type}

/-- The links of one node are in range: a leaf's range lies in `0 .. nIdx`, an interior node's two children lie behind
the node itself and inside the node array. -/
def BvhNode.LinksOk (nNodes nIdx i : Nat) (nd : BvhNode F) : Prop :=
  (nd.bounds.extra1 ≥ 0 → 0 ≤ nd.bounds.extra2 ∧ nd.bounds.extra2 + nd.bounds.extra1 ≤ (nIdx : Int)) ∧
  (nd.bounds.extra1 < 0 → (i : Int) < nd.bounds.extra2 ∧ nd.bounds.extra2 + 1 < (nNodes : Int))

/-- Every node's links are in range and children come after their parents. -/
def Bvh.LinksOk (b : Bvh F) : Prop :=
  ∀ (i : Nat) (nd : BvhNode F), b.nodes[i]? = some nd → nd.LinksOk b.nodes.length b.primIndices.length i

end Rtbvh
