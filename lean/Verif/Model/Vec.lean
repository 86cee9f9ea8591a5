import Verif.Model.Float
/-
The parts of glam used by the crate: `Vec3` (three scalar lanes) and `Vec4` (four SIMD lanes).
-/
namespace Rtbvh
variable {F : Type}

/-- `glam::Vec3` / `Vec3A` (src/aabb.rs 2, src/ray.rs 1). -/
structure Vec3 (F : Type) where
  x : F
  y : F
  z : F
deriving DecidableEq, Repr

/-- `glam::Vec4` and `[f32; 4]` (src/ray.rs 48-60, src/mbvh_node.rs 30-35). -/
structure Vec4 (F : Type) where
  x : F
  y : F
  z : F
  w : F
deriving DecidableEq, Repr

namespace Vec3
/-- `v[axis]`; all axes used by the crate are 0, 1 or 2 (src/aabb.rs 389). -/
def get (v : Vec3 F) (axis : Fin 3) : F :=
  match axis with
  | 0 => v.x
  | 1 => v.y
  | 2 => v.z
/-- `Vec3::splat`. -/
def splat (a : F) : Vec3 F := ⟨a, a, a⟩
/-- Lane-wise map of a binary operation. -/
def map2 (f : F → F → F) (a b : Vec3 F) : Vec3 F := ⟨f a.x b.x, f a.y b.y, f a.z b.z⟩
variable [FloatOps F]
/-- `a + b`. -/
def add (a b : Vec3 F) : Vec3 F := map2 FloatOps.add a b
/-- `a - b`. -/
def sub (a b : Vec3 F) : Vec3 F := map2 FloatOps.sub a b
/-- `a * b`, lane-wise. -/
def mul (a b : Vec3 F) : Vec3 F := map2 FloatOps.mul a b
/-- `a / b`, lane-wise. -/
def div (a b : Vec3 F) : Vec3 F := map2 FloatOps.div a b
/-- `-a`. -/
def neg (a : Vec3 F) : Vec3 F := ⟨FloatOps.neg a.x, FloatOps.neg a.y, FloatOps.neg a.z⟩
/-- `Vec3::min`: scalar `f32::min` per lane. -/
def min (a b : Vec3 F) : Vec3 F := map2 FloatOps.min a b
/-- `Vec3::max`: scalar `f32::max` per lane. -/
def max (a b : Vec3 F) : Vec3 F := map2 FloatOps.max a b
/-- `a * s` for a scalar `s`. -/
def scale (a : Vec3 F) (s : F) : Vec3 F := ⟨a.x *. s, a.y *. s, a.z *. s⟩
/-- `s * a` for a scalar `s` on the left. -/
def lscale (s : F) (a : Vec3 F) : Vec3 F := ⟨s *. a.x, s *. a.y, s *. a.z⟩
/-- `Vec3::dot`: `(a.x*b.x) + (a.y*b.y) + (a.z*b.z)`. -/
def dot (a b : Vec3 F) : F := (a.x *. b.x) +. (a.y *. b.y) +. (a.z *. b.z)
/-- `Vec3::cross`. -/
def cross (a b : Vec3 F) : Vec3 F :=
  ⟨a.y *. b.z -. b.y *. a.z, a.z *. b.x -. b.z *. a.x, a.x *. b.y -. b.x *. a.y⟩
/-- `Vec3::is_nan`: some lane is NaN. -/
def isNaN (a : Vec3 F) : Bool := FloatOps.isNaN a.x || FloatOps.isNaN a.y || FloatOps.isNaN a.z
/-- `a.cmpgt(b).all()`. -/
def allGt (a b : Vec3 F) : Bool := a.x >. b.x && a.y >. b.y && a.z >. b.z
/-- `a.cmplt(b).all()`. -/
def allLt (a b : Vec3 F) : Bool := a.x <. b.x && a.y <. b.y && a.z <. b.z
/-- `a.cmple(b).all()`. -/
def allLe (a b : Vec3 F) : Bool := a.x <=. b.x && a.y <=. b.y && a.z <=. b.z
end Vec3

namespace Vec4
/-- `v[i]`, `i < 4`. -/
def get (v : Vec4 F) (i : Fin 4) : F :=
  match i with
  | 0 => v.x
  | 1 => v.y
  | 2 => v.z
  | 3 => v.w
/-- `v[i] = a`, `i < 4`. -/
def set (v : Vec4 F) (i : Fin 4) (a : F) : Vec4 F :=
  match i with
  | 0 => { v with x := a }
  | 1 => { v with y := a }
  | 2 => { v with z := a }
  | 3 => { v with w := a }
/-- Build from a lane function. -/
def ofFn (f : Fin 4 → F) : Vec4 F := ⟨f 0, f 1, f 2, f 3⟩
/-- `Vec4::splat`. -/
def splat (a : F) : Vec4 F := ⟨a, a, a, a⟩
/-- Lane-wise map. -/
def map {G : Type} (f : F → G) (a : Vec4 F) : Vec4 G := ⟨f a.x, f a.y, f a.z, f a.w⟩
/-- Lane-wise map of a binary operation. -/
def map2 {G H : Type} (f : F → G → H) (a : Vec4 F) (b : Vec4 G) : Vec4 H :=
  ⟨f a.x b.x, f a.y b.y, f a.z b.z, f a.w b.w⟩
/-- `mask.any()`. -/
def any (a : Vec4 Bool) : Bool := a.x || a.y || a.z || a.w

@[simp] theorem get_map {G : Type} (f : F → G) (a : Vec4 F) (i : Fin 4) : (map f a).get i = f (a.get i) := by
  unfold get map; split <;> rfl
@[simp] theorem get_map2 {G H : Type} (f : F → G → H) (a : Vec4 F) (b : Vec4 G) (i : Fin 4) :
    (map2 f a b).get i = f (a.get i) (b.get i) := by
  unfold get map2; split <;> rfl
@[simp] theorem get_splat (a : F) (i : Fin 4) : (splat a).get i = a := by
  unfold get splat; split <;> rfl
@[simp] theorem get_ofFn (f : Fin 4 → F) (i : Fin 4) : (ofFn f).get i = f i := by
  unfold get ofFn; split <;> rfl
theorem any_iff (a : Vec4 Bool) : a.any = true ↔ ∃ i, a.get i = true := by
  constructor
  · intro h
    simp only [any, Bool.or_eq_true] at h
    rcases h with ((h | h) | h) | h
    · exact ⟨0, h⟩
    · exact ⟨1, h⟩
    · exact ⟨2, h⟩
    · exact ⟨3, h⟩
  · rintro ⟨i, h⟩
    unfold get at h
    simp only [any, Bool.or_eq_true]
    split at h <;> simp [h]
theorem ext_get {a b : Vec4 F} (h : ∀ i, a.get i = b.get i) : a = b := by
  have h0 := h 0; have h1 := h 1; have h2 := h 2; have h3 := h 3
  cases a; cases b; simp_all [get]
end Vec4

end Rtbvh
