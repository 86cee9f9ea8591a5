import Verif.Model.Spatial
/- Specification of how the spatial SAH builder looks for a clipping plane.  An interval of an axis is divided into slabs
of equal width; the boxes of the references are cut into the slabs; every inner boundary of a slab is a candidate plane. -/
namespace Rtbvh
open FloatOps
variable {F : Type} [FloatOps F]

/-- The slabs of one pass: an axis, the number of slabs, the start of the first and their width. -/
structure Slabs (F : Type) where
  axis : Fin 3
  count : Nat
  start : F
  width : F

/-- The interval from `lo` to `hi` of an axis in `count` slabs. -/
def Slabs.of (axis : Fin 3) (count : Nat) (lo hi : F) : Slabs F := ⟨axis, count, lo, (hi -. lo) /. ofNat count⟩

namespace Slabs
variable (s : Slabs F) (prims : List (SpatialPrim F))

/-- The plane between slab `j - 1` and slab `j`. -/
def plane (j : Nat) : F := s.start +. ofNat j *. s.width
/-- The slab of a coordinate; those outside the interval count to the first or the last slab. -/
def slab (x : F) : Nat := Min.min (s.count - 1) (toNat (FloatOps.max ((one /. s.width) *. (x -. s.start)) zero))
/-- The slab in which a reference begins. -/
def first (r : Ref F) : Nat := s.slab (r.aabb.min.get s.axis)
/-- The slab in which a reference ends. -/
def last (r : Ref F) : Nat := s.slab (r.aabb.max.get s.axis)

/-- The references that are looked at: those before the first one with an invalid box, one whose minimum is not at most its
maximum on all three axes. -/
def usable (refs : List (Ref F)) : List (Ref F) :=
  refs.takeWhile fun r =>
    r.aabb.min.x <=. r.aabb.max.x && r.aabb.min.y <=. r.aabb.max.y && r.aabb.min.z <=. r.aabb.max.z

/-- Two parts of a reference's primitive, below and above the plane before slab `j`, by the primitive's `split`. -/
def cutAt (r : Ref F) (j : Nat) : Aabb F × Aabb F :=
  match prims[r.primId]? with
  | some p => p.split s.axis (s.plane j)
  | none => (Aabb.empty, Aabb.empty)

/-- What is left of a reference's box after cutting off `k` slabs. -/
def rest (r : Ref F) : (k : Nat) → Aabb F
  | 0 => r.aabb
  | k + 1 => (rest r k).shrink (s.cutAt prims r (s.first r + k + 1)).2

/-- The box of a reference's part in slab `j`. -/
def part (r : Ref F) (j : Nat) : Option (Aabb F) :=
  if j < s.first r ∨ s.last r < j then none
  else if j = s.last r then some (s.rest prims r (s.last r - s.first r))
  else some ((s.cutAt prims r (j + 1)).1.shrink (s.rest prims r (j - s.first r)))

/-- The union of the parts in slab `j`. -/
def slabBox (refs : List (Ref F)) (j : Nat) : Aabb F :=
  ((usable refs).filterMap fun r => s.part prims r j).foldl Aabb.growBB Aabb.empty
/-- The union of the parts in the slabs from `j` on. -/
def boxFrom (refs : List (Ref F)) (j : Nat) : Aabb F :=
  (List.range' j (s.count - j)).foldr (fun i b => b.growBB (s.slabBox prims refs i)) Aabb.empty
/-- What the code takes for the box of the left side of the plane after slab `j`: not the union of slabs `0 .. j` but the
union over these of everything from there on (`C77_left_box` shows that this is the box of the whole node). -/
def leftBox (refs : List (Ref F)) (j : Nat) : Aabb F :=
  ((List.range (j + 1)).map (s.boxFrom prims refs)).foldl Aabb.growBB Aabb.empty
/-- The number of references that begin in the slabs `0 .. j`. -/
def begun (refs : List (Ref F)) (j : Nat) : Nat := ((usable refs).filter fun r => decide (s.first r ≤ j)).length

/-- The cost of the plane after slab `j`: number times half area, summed over both sides, where a reference counts as left
if it begins left of the plane, and all others as right. -/
def cost (refs : List (Ref F)) (j : Nat) : F :=
  ofNat (s.begun refs j) *. (s.leftBox prims refs j).halfArea +.
    ofNat (refs.length - s.begun refs j) *. (s.boxFrom prims refs (j + 1)).halfArea

/-- The surface-area cost of the plane after slab `j`: number times half area, summed over both sides, where a reference
counts on each side it reaches into. -/
def areaCost (refs : List (Ref F)) (j : Nat) : F :=
  ofNat (s.begun refs j) *. (((List.range (j + 1)).map (s.slabBox prims refs)).foldl Aabb.growBB Aabb.empty).halfArea +.
    ofNat ((usable refs).filter fun r => decide (j < s.last r)).length *. (s.boxFrom prims refs (j + 1)).halfArea

/-- The pass panics at a reference: it ends before it begins, or has to be cut and its primitive does not exist. -/
def PanicsAt (r : Ref F) : Prop := s.last r < s.first r ∨ s.first r ≠ s.last r ∧ prims[r.primId]? = none

/-- A pass leaves the best plane so far: no plane is cheaper. -/
def Keeps (refs : List (Ref F)) (best : SpatialSplit F) : Prop :=
  ∀ j, j < s.count - 1 → (s.cost prims refs j <. best.cost) = false

/-- A pass finds a better plane: the cheapest, and the first of several. -/
def Improves (refs : List (Ref F)) (best new : SpatialSplit F) : Prop :=
  ∃ j, j < s.count - 1 ∧ new = ⟨s.cost prims refs j, s.plane (j + 1), s.axis⟩ ∧
    (s.cost prims refs j <. best.cost) = true ∧
    (∀ i, i < s.count - 1 → (s.cost prims refs i <. s.cost prims refs j) = false) ∧
    ∀ i, i < j → (s.cost prims refs i <=. s.cost prims refs j) = false

end Slabs

/-- At most `k` passes on an axis over an interval, starting with the best plane so far; after a better plane is found,
the next pass looks at one slab to either side of it. -/
inductive Passes (ctx : SpatialCtx F) (refs : List (Ref F)) (axis : Fin 3) :
    Nat → F → F → SpatialSplit F → SpatialSplit F → Prop
  | done {lo hi best} : Passes ctx refs axis 0 lo hi best best
  | keep {k lo hi best} (hp : ∀ r ∈ Slabs.usable refs, ¬ (Slabs.of axis ctx.binCount lo hi).PanicsAt ctx.prims r)
      (h : (Slabs.of axis ctx.binCount lo hi).Keeps ctx.prims refs best) : Passes ctx refs axis (k + 1) lo hi best best
  | better {k lo hi best new final}
      (hp : ∀ r ∈ Slabs.usable refs, ¬ (Slabs.of axis ctx.binCount lo hi).PanicsAt ctx.prims r)
      (h : (Slabs.of axis ctx.binCount lo hi).Improves ctx.prims refs best new)
      (hk : Passes ctx refs axis k (new.position -. (Slabs.of axis ctx.binCount lo hi).width)
        (new.position +. (Slabs.of axis ctx.binCount lo hi).width) new final) :
      Passes ctx refs axis (k + 1) lo hi best final

/-- At most `k` passes panic. -/
inductive PassPanics (ctx : SpatialCtx F) (refs : List (Ref F)) (axis : Fin 3) : Nat → F → F → SpatialSplit F → Prop
  | here {k lo hi best r} (hr : r ∈ Slabs.usable refs) (h : (Slabs.of axis ctx.binCount lo hi).PanicsAt ctx.prims r) :
      PassPanics ctx refs axis (k + 1) lo hi best
  | later {k lo hi best new}
      (h : (Slabs.of axis ctx.binCount lo hi).Improves ctx.prims refs best new)
      (hk : PassPanics ctx refs axis k (new.position -. (Slabs.of axis ctx.binCount lo hi).width)
        (new.position +. (Slabs.of axis ctx.binCount lo hi).width) new) :
      PassPanics ctx refs axis (k + 1) lo hi best

/-- The best plane before the search: none, at cost `f32::MAX`. -/
def noPlane : SpatialSplit F := ⟨maxFinite, zero, 0⟩

/-- The plane found for references inside a box: the three axes one after the other, each over the box's extent. -/
def ClipPlane (ctx : SpatialCtx F) (B : Aabb F) (refs : List (Ref F)) (plane : SpatialSplit F) : Prop :=
  ∃ px py, Passes ctx refs 0 ctx.binningPassCount B.min.x B.max.x noPlane px ∧
    Passes ctx refs 1 ctx.binningPassCount B.min.y B.max.y px py ∧
    Passes ctx refs 2 ctx.binningPassCount B.min.z B.max.z py plane

/-- The search for a plane panics. -/
def ClipPanics (ctx : SpatialCtx F) (B : Aabb F) (refs : List (Ref F)) : Prop :=
  PassPanics ctx refs 0 ctx.binningPassCount B.min.x B.max.x noPlane ∨
    ∃ px, Passes ctx refs 0 ctx.binningPassCount B.min.x B.max.x noPlane px ∧
      (PassPanics ctx refs 1 ctx.binningPassCount B.min.y B.max.y px ∨
        ∃ py, Passes ctx refs 1 ctx.binningPassCount B.min.y B.max.y px py ∧
          PassPanics ctx refs 2 ctx.binningPassCount B.min.z B.max.z py)

end Rtbvh
