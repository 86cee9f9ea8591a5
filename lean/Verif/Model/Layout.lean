/- The memory layout of the `repr(C)` types and the addresses used by SIMD loads and by the C interface. -/
namespace Rtbvh

/-- Size and alignment of a type, in bytes. -/
structure Layout where
  size : Nat
  align : Nat
deriving DecidableEq, Repr

/-- The next multiple of `a` from `n` on. -/
def roundUp (n a : Nat) : Nat := (n + a - 1) / a * a

/-- The offsets of the fields of a `repr(C)` struct that begin at `n`, and where the last one ends. -/
def fieldOffsets : Nat → List Layout → List Nat × Nat
  | n, [] => ([], n)
  | n, f :: fs =>
    let o := roundUp n f.align
    let r := fieldOffsets (o + f.size) fs
    (o :: r.1, r.2)

/-- The layout of a `repr(C)` struct with an `align(extra)` attribute (`extra = 1` for none). -/
def reprC (extra : Nat) (fs : List Layout) : Layout :=
  let align := fs.foldl (fun a f => Max.max a f.align) extra
  { size := roundUp (fieldOffsets 0 fs).2 align, align := align }

/-- `f32`, `i32`. -/
def word4 : Layout := { size := 4, align := 4 }
/-- `[f32; n]`, `[i32; n]`; also `glam::Vec3` with `n = 3`, which is a `repr(C)` struct of three `f32`. -/
def words4 (n : Nat) : Layout := { size := 4 * n, align := 4 }

/-- The fields of `Aabb<i32>` (src/aabb.rs 13-20). -/
def aabbFields : List Layout := [words4 3, word4, words4 3, word4]
/-- `Aabb<i32>`: `repr(C, align(16))` (src/aabb.rs 13). -/
def aabbLayout : Layout := reprC 16 aabbFields
/-- `BvhNode`: `repr(C)` (src/bvh_node.rs 11-14). -/
def bvhNodeLayout : Layout := reprC 1 [aabbLayout]
/-- The fields of `MbvhNode` (src/mbvh_node.rs 29-38). -/
def mbvhNodeFields : List Layout :=
  [words4 4, words4 4, words4 4, words4 4, words4 4, words4 4, words4 4, words4 4]
/-- `MbvhNode`: `repr(C)` (src/mbvh_node.rs 28). -/
def mbvhNodeLayout : Layout := reprC 1 mbvhNodeFields
/-- The fields of `RTAabb` (rtbvh_ffi/src/lib.rs 146-151). -/
def rtAabbFields : List Layout := [words4 3, word4, words4 3, word4]
/-- `RTAabb`: `repr(C)` (rtbvh_ffi/src/lib.rs 145). -/
def rtAabbLayout : Layout := reprC 1 rtAabbFields
/-- `RTBvhNode` (rtbvh_ffi/src/lib.rs 176-179). -/
def rtBvhNodeLayout : Layout := reprC 1 [rtAabbLayout]
/-- The fields of `RTMbvhNode` (rtbvh_ffi/src/lib.rs 199-208). -/
def rtMbvhNodeFields : List Layout :=
  [words4 4, words4 4, words4 4, words4 4, words4 4, words4 4, words4 4, words4 4]
/-- `RTMbvhNode`: `repr(C)` (rtbvh_ffi/src/lib.rs 198). -/
def rtMbvhNodeLayout : Layout := reprC 1 rtMbvhNodeFields

/-- Element `i` of a slice of `T` that begins at `base`. -/
def elemAddr (T : Layout) (base i : Nat) : Nat := base + i * T.size

/-- The addresses from which `MbvhNode::points`, `min_points` and `max_points` load four floats each with `_mm_load_ps`
(src/mbvh_node.rs 80-159): the first six fields of node `i`. -/
def pointLoads (base i : Nat) : List Nat :=
  ((fieldOffsets 0 mbvhNodeFields).1.take 6).map fun o => elemAddr mbvhNodeLayout base i + o

/-- `_mm_load_ps` faults unless its address is a multiple of 16 (`_mm_loadu_ps` would accept any). -/
def loadAligned (addr : Nat) : Prop := addr % 16 = 0

/-- The slices `slice::from_raw_parts(aabbs as *const Aabb, n)` that `create_bvh`, `create_spatial_Bvh` and `refit` make
from the caller's boxes (rtbvh_ffi/src/lib.rs 359, 452, 526-529) are only allowed if every element is aligned for
`Aabb`. -/
def boxesAligned (base n : Nat) : Prop := ∀ i, i < n → elemAddr aabbLayout base i % aabbLayout.align = 0

end Rtbvh
