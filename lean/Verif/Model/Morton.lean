import Verif.Model.Utils
import Verif.Model.Builder
/- Model of src/morton.rs. -/
namespace Rtbvh
variable {F : Type}

/-- The `while` loop of `morton_split` (src/morton.rs 16-22): `i` iterations left; `mask` and `x` are `usize`, taken
to be 64 bits wide. -/
def mortonLoop : (i n : Nat) → (mask x : BitVec 64) → BitVec 64
  | 0, _, _, x => x
  | i + 1, n, mask, x =>
    let mask' := (mask ||| (mask <<< n)) &&& ~~~(mask <<< (n / 2))
    let x' := (x ||| (x <<< n)) &&& mask'
    mortonLoop i (n / 2) mask' x'

/-- `morton_split` (src/morton.rs 10-25); `size_of::<u32>() * 8 = 32`. -/
def mortonSplit (x : BitVec 32) : BitVec 32 :=
  let logBits := roundUpLog2 32 32 0
  (mortonLoop logBits (1 <<< logBits) (~~~0#64) (x.setWidth 64)).setWidth 32

/-- `MortonEncoder::morton_encode` (src/morton.rs 48-50). -/
def mortonEncode (x y z : BitVec 32) : BitVec 32 :=
  mortonSplit x ||| (mortonSplit y <<< 1) ||| (mortonSplit z <<< 2)

/-- `MortonEncoder` (src/morton.rs 27-31). -/
structure MortonEncoder (F : Type) where
  worldToGrid : Vec3 F
  gridOffset : Vec3 F
  gridDim : Nat

namespace MortonEncoder

/-- `MortonEncoder::MAX_GRID_DIM` (src/morton.rs 34). -/
def maxGridDim : Nat := 1 <<< (4 * 8 / 3)

variable [FloatOps F]
open FloatOps

/-- `MortonEncoder::new` (src/morton.rs 36-46); the `debug_assert!` is a precondition of the theorems. -/
def new (aabb : Aabb F) (gridDim : Nat) : MortonEncoder F :=
  let worldToGrid := Vec3.lscale (ofNat gridDim) ((Vec3.splat one).div aabb.diagonal)
  { worldToGrid := worldToGrid, gridOffset := aabb.min.neg.mul worldToGrid, gridDim := gridDim }

/-- `grid_pos` (src/morton.rs 53). -/
def gridPos (e : MortonEncoder F) (point : Vec3 F) : Vec3 F := (point.mul e.worldToGrid).add e.gridOffset

/-- `min.min((p as i32).max(0)) as u32` (src/morton.rs 54-58). -/
def clampCell (e : MortonEncoder F) (p : F) : BitVec 32 :=
  BitVec.ofInt 32 (Min.min ((e.gridDim : Int) - 1) (Max.max (toI32 p) 0))

/-- `MortonEncoder::encode` (src/morton.rs 52-61). -/
def encode (e : MortonEncoder F) (point : Vec3 F) : BitVec 32 :=
  let g := e.gridPos point
  mortonEncode (e.clampCell g.x) (e.clampCell g.y) (e.clampCell g.z)

/-- `(0..prim_count).map(|i| encode(primitives[i].center())).collect()` (src/morton.rs 73-83): indexed parallel
iterators keep the order; `none` is an index panic. -/
def codes (e : MortonEncoder F) (count : Nat) (centers : List (Vec3 F)) : Option (List Nat) :=
  if count ≤ centers.length then some ((centers.take count).map fun c => (e.encode c).toNat) else none

/-- One insertion of the stable sort that stands for `par_sort_by`/`sort_by` (src/morton.rs 85-99): `a`, which comes
before every element of the list in the input, is put before the first element whose code is not smaller. -/
def insertByCode (codes : List Nat) (a : Nat) : List Nat → List Nat
  | [] => [a]
  | b :: l => if codes.getD a 0 ≤ codes.getD b 0 then a :: b :: l else b :: insertByCode codes a l

/-- `get_sorted_indices` (src/morton.rs 63-102): the indices in stable order of their codes, and the codes.
Simplification: `par_sort_by`/`sort_by` are replaced by a stable insertion sort; a stable sort has only one possible
result (`stable_unique`). -/
def getSortedIndices (e : MortonEncoder F) (aabbs : List (Aabb F)) (centers : List (Vec3 F)) :
    Option (List Nat × List Nat) :=
  match e.codes aabbs.length centers with
  | none => none
  | some codes =>
    some ((List.range aabbs.length).foldr (insertByCode codes) [], codes)

end MortonEncoder
end Rtbvh
