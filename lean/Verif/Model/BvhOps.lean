import Verif.Model.Iter
/- Model of `Bvh::refit`, `Bvh::traverse_check`, `Bvh::validate` (src/bvh.rs 176-244). -/
namespace Rtbvh
variable {F : Type}

/-- The leaf loop of `traverse_check` (src/bvh.rs 210-219): mark `prim_indices[left_first + i]` for `i` in
`i0 .. i0 + k`; `none` is an index panic. -/
def markLoop (indices : List Nat) (leftFirst : Int) : (k i : Nat) → List Bool → Option (List Bool)
  | 0, _, checks => some checks
  | k + 1, i, checks =>
    match atI32 indices (leftFirst + (i : Int)) with
    | none => none
    | some id => if id < checks.length then markLoop indices leftFirst k (i + 1) (checks.set id true) else none

/-- `Bvh::traverse_check` (src/bvh.rs 207-228).  `fuel` bounds the recursion depth (a cyclic node array would overflow
the call stack); `none` is a panic. -/
def traverseCheck (nodes : List (BvhNode F)) (indices : List Nat) : (fuel : Nat) → BvhNode F → List Bool →
    Option (List Bool)
  | 0, _, _ => none
  | fuel + 1, node, checks =>
    match node.getLeftFirst with
    | none => some checks
    | some leftFirst =>
      if node.isLeaf then markLoop indices (asI32 leftFirst) node.countU.toNat 0 checks
      else
        match nodes[leftFirst]?, nodes[leftFirst + 1]? with
        | some l, some r => (traverseCheck nodes indices fuel l checks).bind (traverseCheck nodes indices fuel r)
        | _, _ => none

/-- `Bvh::validate(prim_count)` (src/bvh.rs 232-244), with the recursion bound of `traverseCheck`. -/
def Bvh.validate (b : Bvh F) (fuel primCount : Nat) : Option Bool :=
  match b.nodes[0]? with
  | none => none
  | some root =>
    (traverseCheck b.nodes b.primIndices fuel root (List.replicate primCount false)).map fun checks => checks.all id

variable [FloatOps F]

/-- The leaf loop of `refit` (src/bvh.rs 186-189). -/
def refitLeaf (indices : List Nat) (newAabbs : List (Aabb F)) (leftFirst : Nat) : (k i : Nat) → Aabb F → Option (Aabb F)
  | 0, _, aabb => some aabb
  | k + 1, i, aabb =>
    match indices[leftFirst + i]? with
    | none => none
    | some id =>
      match newAabbs[id]? with
      | none => none
      | some bb => refitLeaf indices newAabbs leftFirst k (i + 1) (aabb.growBB bb)

/-- One iteration of the loop of `refit` (src/bvh.rs 178-203): the box computed for node `node`. -/
def refitBox (nodes : List (BvhNode F)) (indices : List Nat) (newAabbs : List (Aabb F)) (node : BvhNode F) :
    Option (Aabb F) :=
  match node.getLeftFirst with
  | none => some Aabb.new
  | some leftFirst =>
    (if node.isLeaf then refitLeaf indices newAabbs leftFirst node.countU.toNat 0 Aabb.new
     else
      match nodes[leftFirst]?, nodes[leftFirst + 1]? with
      | some l, some r => some ((Aabb.new.growBB l.bounds).growBB r.bounds)
      | _, _ => none).map fun aabb => aabb.offsetBy (FloatOps.lit 1 (-4))

/-- The loop of `refit` (src/bvh.rs 177-204) for the node indices `i-1, ..., 0`. -/
def refitLoop (indices : List Nat) (newAabbs : List (Aabb F)) : (i : Nat) → List (BvhNode F) → Option (List (BvhNode F))
  | 0, nodes => some nodes
  | i + 1, nodes =>
    match nodes[i]? with
    | none => none
    | some nd =>
      match refitBox nodes indices newAabbs nd with
      | none => none
      | some aabb => refitLoop indices newAabbs i (nodes.set i { bounds := aabb })

/-- `Bvh::refit(new_aabbs)` (src/bvh.rs 176-205); `none` is an index panic. -/
def Bvh.refit (b : Bvh F) (newAabbs : List (Aabb F)) : Option (Bvh F) :=
  (refitLoop b.primIndices newAabbs b.nodes.length b.nodes).map fun nodes => { b with nodes := nodes }

end Rtbvh
