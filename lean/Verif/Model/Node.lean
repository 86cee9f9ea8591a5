import Verif.Model.Aabb
/- Model of src/bvh_node.rs and the `Bvh` container of src/bvh.rs. -/
namespace Rtbvh
variable {F : Type}

/-- `x as i32` for an unsigned `x` (two's complement wrap), src/bvh_node.rs 81, 109. -/
def asI32 (x : Nat) : Int :=
  if x % 4294967296 < 2147483648 then ((x % 4294967296 : Nat) : Int)
  else ((x % 4294967296 : Nat) : Int) - 4294967296
/-- `x as u32` for an `i32` `x` (two's complement wrap), src/bvh_node.rs 95, 123. -/
def asU32 (x : Int) : Nat := (x % 4294967296).toNat

/-- `BvhNode` (src/bvh_node.rs 12-14): the count lives in `bounds.extra1`, left_first in `bounds.extra2`. -/
structure BvhNode (F : Type) where
  bounds : Aabb F
deriving DecidableEq, Repr

namespace BvhNode
/-- `BvhNode::new` / `default` (src/bvh_node.rs 16-22, 62-66). -/
def new [FloatOps F] : BvhNode F := { bounds := Aabb.new }
/-- `set_left_first` (src/bvh_node.rs 79-84). -/
def setLeftFirst (n : BvhNode F) (lf : Option Nat) : BvhNode F :=
  { n with bounds := { n.bounds with extra2 := match lf with | some l => asI32 l | none => -1 } }
/-- `get_left_first` (src/bvh_node.rs 93-99). -/
def getLeftFirst (n : BvhNode F) : Option Nat :=
  if n.bounds.extra2 ≥ 0 then some (asU32 n.bounds.extra2) else none
/-- `get_left_first_unchecked` (src/bvh_node.rs 102-104). -/
def leftFirstU (n : BvhNode F) : Int := n.bounds.extra2
/-- `set_count` (src/bvh_node.rs 107-112). -/
def setCount (n : BvhNode F) (c : Option Nat) : BvhNode F :=
  { n with bounds := { n.bounds with extra1 := match c with | some c => asI32 c | none => -1 } }
/-- `get_count` (src/bvh_node.rs 121-127). -/
def getCount (n : BvhNode F) : Option Nat :=
  if n.bounds.extra1 ≥ 0 then some (asU32 n.bounds.extra1) else none
/-- `get_count_unchecked` (src/bvh_node.rs 130-132). -/
def countU (n : BvhNode F) : Int := n.bounds.extra1
/-- `has_children` (src/bvh_node.rs 135-137). -/
def hasChildren (n : BvhNode F) : Bool := n.bounds.extra1 < 0 && n.bounds.extra2 ≥ 0
/-- `is_leaf` (src/bvh_node.rs 140-142). -/
def isLeaf (n : BvhNode F) : Bool := n.bounds.extra1 ≥ 0
/-- `is_valid` (src/bvh_node.rs 145-147). -/
def isValid (n : BvhNode F) : Bool := n.bounds.extra2 ≥ 0
end BvhNode

/-- `BuildType` (src/bvh.rs 18-23). -/
inductive BuildType | none | locallyOrderedClustered | binnedSAH | spatial
deriving DecidableEq, Repr

/-- `Bvh` (src/bvh.rs 143-147). -/
structure Bvh (F : Type) where
  nodes : List (BvhNode F)
  primIndices : List Nat
  buildType : BuildType
deriving DecidableEq, Repr

/-- `Bvh::default` (src/bvh.rs 149-157). -/
def Bvh.default : Bvh F := { nodes := [], primIndices := [], buildType := .none }
/-- `Bvh::indices` (src/bvh.rs 164-166). -/
def Bvh.indices (b : Bvh F) : List Nat := b.primIndices
/-- `Bvh::prim_count` (src/bvh.rs 172-174). -/
def Bvh.primCount (b : Bvh F) : Nat := b.primIndices.length
/-- `Bounds for Bvh` (src/bvh.rs 446-455): the root's bounds with the extras as stored, or an empty box. -/
def Bvh.bounds [FloatOps F] (b : Bvh F) : Aabb F :=
  match b.nodes with
  | [] => Aabb.new
  | n :: _ => n.bounds

end Rtbvh
