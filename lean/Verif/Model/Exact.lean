import Verif.Model.Float
/-
Exact arithmetic as an instance of the float carrier: every finite `f32` is a rational number, so this is the
behaviour of the code if no rounding, overflow or division by zero happened.
-/
namespace Rtbvh

/-- `x * 10^e` as a rational. -/
def ratPow10 (e : Int) : Rat := if e ≥ 0 then ((10 ^ e.toNat : Nat) : Rat) else 1 / ((10 ^ (-e).toNat : Nat) : Rat)

/-- Exact rational arithmetic in place of `f32` (simplification: no rounding, no NaN, no infinities, `x / 0 = 0`);
used where a property is stated in exact arithmetic, and for executable examples.  Operations as used in
src/aabb.rs 146-244; `maxFinite` is the value of `f32::MAX`; the casts saturate as in Rust. -/
instance instFloatOpsRat : FloatOps Rat where
  add a b := a + b
  sub a b := a - b
  mul a b := a * b
  div a b := a / b
  neg a := -a
  abs a := if a < 0 then -a else a
  lt a b := decide (a < b)
  le a b := decide (a ≤ b)
  min a b := if b < a then b else a
  max a b := if a < b then b else a
  vmin a b := if a < b then a else b
  vmax a b := if b < a then a else b
  isNaN _ := false
  ofNat n := (n : Rat)
  lit m e := (m : Rat) * ratPow10 e
  maxFinite := (((2 ^ 24 - 1) * 2 ^ 104 : Nat) : Rat)
  toNat a := Min.min a.floor.toNat (2 ^ 64 - 1)
  toI32 a := if a ≥ 0 then Min.min a.floor 2147483647 else Max.max a.ceil (-2147483648)

end Rtbvh
