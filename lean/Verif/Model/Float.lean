/-
Floating-point carrier.  The Rust code computes with `f32`; the model is written over an arbitrary carrier `F`
with the operations below.  `FloatOps` has *no laws*: theorems that only assume `FloatOps F` hold for any
behaviour of the floating-point unit, NaN and infinities included.
-/
namespace Rtbvh

/-- Operations on `f32` used by the crate.
* `min`/`max` : scalar `f32::min`/`f32::max` (used by glam's `Vec3::min/max`, src/aabb.rs 78, 254, 268, 293);
* `vmin`/`vmax` : 4-lane `minps`/`maxps` of glam's `Vec4` (src/aabb.rs 227-236, src/mbvh_node.rs 177-295);
* `toNat` : the saturating cast `as usize` (src/builders/binned_sah.rs 127), NaN becomes 0;
* `toI32` : the saturating cast `as i32` (src/morton.rs 56), NaN becomes 0;
* `ofNat` : the cast `n as f32`;
* `lit m e` : the decimal literal `m * 10^e` rounded to `f32`;
* `maxFinite` : `std::f32::MAX`. -/
class FloatOps (F : Type) where
  add : F → F → F
  sub : F → F → F
  mul : F → F → F
  div : F → F → F
  neg : F → F
  abs : F → F
  lt : F → F → Bool
  le : F → F → Bool
  min : F → F → F
  max : F → F → F
  vmin : F → F → F
  vmax : F → F → F
  isNaN : F → Bool
  ofNat : Nat → F
  lit : Int → Int → F
  maxFinite : F
  toNat : F → Nat
  toI32 : F → Int

namespace FloatOps
variable {F : Type} [FloatOps F]
/-- The literal `0.0`. -/
def zero : F := lit 0 0
/-- The literal `1.0`. -/
def one : F := lit 1 0
/-- `a > b` on floats is `b < a`. -/
def gt (a b : F) : Bool := lt b a
/-- `a >= b` on floats is `b <= a`. -/
def ge (a b : F) : Bool := le b a
end FloatOps

scoped infixl:65 " +. " => FloatOps.add
scoped infixl:65 " -. " => FloatOps.sub
scoped infixl:70 " *. " => FloatOps.mul
scoped infixl:70 " /. " => FloatOps.div
scoped infix:50 " <. " => FloatOps.lt
scoped infix:50 " <=. " => FloatOps.le
scoped infix:50 " >. " => FloatOps.gt
scoped infix:50 " >=. " => FloatOps.ge

end Rtbvh
