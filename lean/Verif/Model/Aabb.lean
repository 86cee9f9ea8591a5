import Verif.Model.Ray
/- Model of src/aabb.rs (instantiated, as everywhere in the crate, with `Extra = i32`). -/
namespace Rtbvh
variable {F : Type}

/-- `Aabb` (src/aabb.rs 15-20); the two `i32` extras are modelled as `Int`s, casts to `i32` wrap explicitly
(`asI32` in Node.lean). -/
structure Aabb (F : Type) where
  min : Vec3 F
  extra1 : Int
  max : Vec3 F
  extra2 : Int
deriving DecidableEq, Repr

namespace Aabb
variable [FloatOps F]
open FloatOps

/-- `Aabb::new` (src/aabb.rs 50-57). -/
def new : Aabb F :=
  { min := Vec3.splat (lit 1 34), extra1 := 0, max := Vec3.splat (lit (-1) 34), extra2 := 0 }
/-- `Aabb::full` (src/aabb.rs 60-66). -/
def full : Aabb F :=
  { min := Vec3.splat (lit (-1) 34), extra1 := 0, max := Vec3.splat (lit 1 34), extra2 := 0 }
/-- `Aabb::empty` (src/aabb.rs 69-71). -/
def empty : Aabb F := new
/-- `From<(Vec3, Vec3)> for Aabb` (src/aabb.rs 414-422). -/
def ofPoints2 (min max : Vec3 F) : Aabb F := { min := min, extra1 := 0, max := max, extra2 := 0 }

/-- `Aabb::union_of` (src/aabb.rs 74-86). -/
def unionOf (a b : Aabb F) : Aabb F :=
  { min := a.min.min b.min, extra1 := 0, max := a.max.max b.max, extra2 := 0 }
/-- `Aabb::intersection` (src/aabb.rs 89-101). -/
def intersection (a b : Aabb F) : Aabb F :=
  { min := a.min.max b.min, extra1 := 0, max := a.max.min b.max, extra2 := 0 }
/-- `Aabb::grow` (src/aabb.rs 252-261). -/
def grow (a : Aabb F) (p : Vec3 F) : Aabb F := { a with min := a.min.min p, max := a.max.max p }
/-- `Aabb::grow_bb` (src/aabb.rs 264-273). -/
def growBB (a b : Aabb F) : Aabb F := { a with min := a.min.min b.min, max := a.max.max b.max }
/-- `Aabb::grow_bbs` (src/aabb.rs 276-286). -/
def growBBs (a : Aabb F) (bs : List (Aabb F)) : Aabb F :=
  let (mn, mx) := bs.foldl (fun (acc : Vec3 F × Vec3 F) b => (acc.1.min b.min, acc.2.max b.max)) (a.min, a.max)
  { a with min := mn, max := mx }
/-- `Aabb::shrink` (src/aabb.rs 289-298). -/
def shrink (a b : Aabb F) : Aabb F := { a with min := a.min.max b.min, max := a.max.min b.max }
/-- `Aabb::with_offset` / `Aabb::offset_by` (src/aabb.rs 301-321). -/
def offsetBy (a : Aabb F) (delta : F) : Aabb F :=
  { a with min := a.min.sub (Vec3.splat delta), max := a.max.add (Vec3.splat delta) }
/-- `Aabb::from_points` (src/aabb.rs 104-111). -/
def fromPoints (ps : List (Vec3 F)) : Aabb F := (ps.foldl grow empty).offsetBy (lit 1 (-5))
/-- the `aabb!` macro (src/aabb.rs 470-482). -/
def macroAabb (ps : List (Vec3 F)) : Aabb F := (ps.foldl grow empty).offsetBy (lit 1 (-4))
/-- `Aabb::union_of_list` (src/aabb.rs 125-131). -/
def unionOfList (bs : List (Aabb F)) : Aabb F := (bs.foldl growBB new).offsetBy (lit 1 (-4))

/-- `Aabb::is_valid` (src/aabb.rs 141-143). -/
def isValid (a : Aabb F) : Bool := a.min.allLe a.max

/-- `self[i]` with `i` a sign bit (src/aabb.rs 446-468): 0 selects `min`, otherwise `max`. -/
def corner (a : Aabb F) (i : Bool) : Vec3 F := if i then a.max else a.min

/-- The common body of `Aabb::intersect` and `Aabb::intersects` (src/aabb.rs 146-173 and 184-212), up to the last
comparison: the exit distance `ray_max`, or `none` where the code returns early. -/
def slabs (a : Aabb F) (ray : Ray F) : Option F :=
  let rayMin := ((a.corner ray.signX).x -. ray.origin.x) *. ray.invDirection.x
  let rayMax := ((a.corner (!ray.signX)).x -. ray.origin.x) *. ray.invDirection.x
  let yMin := ((a.corner ray.signY).y -. ray.origin.y) *. ray.invDirection.y
  let yMax := ((a.corner (!ray.signY)).y -. ray.origin.y) *. ray.invDirection.y
  if rayMin >. yMax || yMin >. rayMax then none else
  let rayMin := if yMin >. rayMin then yMin else rayMin
  let rayMax := if yMax <. rayMax then yMax else rayMax
  let zMin := ((a.corner ray.signZ).z -. ray.origin.z) *. ray.invDirection.z
  let zMax := ((a.corner (!ray.signZ)).z -. ray.origin.z) *. ray.invDirection.z
  if rayMin >. zMax || zMin >. rayMax then none else
  let rayMax := if zMax <. rayMax then zMax else rayMax
  some rayMax

/-- `Aabb::intersect` (src/aabb.rs 146-181). -/
def intersect (a : Aabb F) (ray : Ray F) : Option F :=
  match a.slabs ray with
  | none => none
  | some rayMax => if rayMax >. ray.tMin then some rayMax else none

/-- `Aabb::intersects` (src/aabb.rs 184-215). -/
def intersects (a : Aabb F) (ray : Ray F) : Bool :=
  match a.slabs ray with
  | none => false
  | some rayMax => rayMax >. zero

/-- `t_min`, `t_max` of one lane of `Aabb::intersect4` (src/aabb.rs 219-236). -/
def lane4 (a : Aabb F) (p : RayPacket4 F) (i : Fin 4) : F × F :=
  let t1x := (a.min.x -. p.originX.get i) *. p.invDirectionX.get i
  let t1y := (a.min.y -. p.originY.get i) *. p.invDirectionY.get i
  let t1z := (a.min.z -. p.originZ.get i) *. p.invDirectionZ.get i
  let t2x := (a.max.x -. p.originX.get i) *. p.invDirectionX.get i
  let t2y := (a.max.y -. p.originY.get i) *. p.invDirectionY.get i
  let t2z := (a.max.z -. p.originZ.get i) *. p.invDirectionZ.get i
  let tMin := vmax (vmin t1x t2x) (vmax (vmin t1y t2y) (vmin t1z t2z))
  let tMax := vmin (vmax t1x t2x) (vmin (vmax t1y t2y) (vmax t1z t2z))
  (tMin, tMax)

/-- One lane of the hit mask of `Aabb::intersect4` (src/aabb.rs 238). -/
def mask4 (a : Aabb F) (p : RayPacket4 F) (i : Fin 4) : Bool :=
  let (tMin, tMax) := a.lane4 p i
  (tMax >. zero) && (tMax >. tMin) && (tMin <. p.t.get i)

/-- `Aabb::intersect4` (src/aabb.rs 218-244). -/
def intersect4 (a : Aabb F) (p : RayPacket4 F) : Option (Vec4 F) :=
  if (Vec4.ofFn (a.mask4 p)).any then some (Vec4.ofFn fun i => (a.lane4 p i).1) else none

/-- `Aabb::contains` (src/aabb.rs 246-249): strict comparison on all six sides. -/
def contains (a : Aabb F) (p : Vec3 F) : Bool := p.allGt a.min && p.allLt a.max

/-- `Aabb::diagonal` / `lengths` (src/aabb.rs 349-351, 398-400). -/
def diagonal (a : Aabb F) : Vec3 F := a.max.sub a.min
/-- `Aabb::volume` (src/aabb.rs 324-327). -/
def volume (a : Aabb F) : F :=
  let l := a.max.sub a.min
  l.x *. l.y *. l.z
/-- `Aabb::center` (src/aabb.rs 330-332). -/
def center (a : Aabb F) : Vec3 F := (a.min.add a.max).scale (lit 5 (-1))
/-- `Aabb::area` (src/aabb.rs 335-340). -/
def area (a : Aabb F) : F :=
  let e := a.max.sub a.min
  FloatOps.max zero (e.x *. e.y +. e.x *. e.z +. e.y *. e.z)
/-- `Aabb::half_area` (src/aabb.rs 343-346). -/
def halfArea (a : Aabb F) : F :=
  let d := a.diagonal
  (d.x +. d.y) *. d.z +. d.x *. d.y
/-- `Aabb::extend` (src/aabb.rs 388-390). -/
def extend (a : Aabb F) (axis : Fin 3) : F := a.max.get axis -. a.min.get axis
/-- `Aabb::longest_axis` (src/aabb.rs 354-363). -/
def longestAxis (a : Aabb F) : Fin 3 :=
  let ax : Fin 3 := if a.extend 1 >. a.extend 0 then 1 else 0
  if a.extend 2 >. a.extend ax then 2 else ax
/-- `Aabb::longest_extent` (src/aabb.rs 403-405). -/
def longestExtent (a : Aabb F) : F := a.diagonal.get a.longestAxis

/-- `Aabb::all_corners` (src/aabb.rs 366-385). -/
def allCorners (a : Aabb F) : List (Vec3 F) :=
  let l := a.diagonal
  let xl : Vec3 F := ⟨l.x, zero, zero⟩
  let yl : Vec3 F := ⟨zero, l.y, zero⟩
  let zl : Vec3 F := ⟨zero, zero, l.z⟩
  [a.min, a.max, a.min.add xl, a.min.add yl, a.min.add zl,
   (a.min.add xl).add yl, (a.min.add xl).add zl, (a.min.add yl).add zl]

/-- The first three rows of `transform * p.extend(1.0)` for a column-major `Mat4` with columns `c0 .. c3`
(src/aabb.rs 115-119); only the first three rows are read by the code, so a `Mat4` is modelled by its four columns
truncated to three rows. glam evaluates `((c0*x + c1*y) + c2*z) + c3*w`. -/
structure Affine (F : Type) where
  c0 : Vec3 F
  c1 : Vec3 F
  c2 : Vec3 F
  c3 : Vec3 F
deriving DecidableEq, Repr

/-- `transform * c.extend(1.0)` (src/aabb.rs 117). -/
def Affine.apply (m : Affine F) (p : Vec3 F) : Vec3 F :=
  (((m.c0.scale p.x).add (m.c1.scale p.y)).add (m.c2.scale p.z)).add (m.c3.scale one)

/-- `Aabb::transformed` (src/aabb.rs 114-122). -/
def transformed (a : Aabb F) (m : Affine F) : Aabb F := fromPoints (a.allCorners.map m.apply)

end Aabb
end Rtbvh
