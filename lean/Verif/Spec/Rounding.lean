import Verif.Model.F32
import Mathlib.Data.Rat.Defs
import Mathlib.Algebra.Order.Field.Rat
/-
What IEEE-754 says about rounding, in exact rational numbers, independently of how the model computes.  This is not a
property of rtbvh: it is the yardstick for the number model every `F32` theorem rests on.
-/
namespace Rtbvh
namespace F32

/-- The exact value of a finite `f32` (infinities and NaN: 0, never used). -/
def val : F32 → ℚ
  | fin neg k _ => (if neg then -(k : ℚ) else (k : ℚ)) / 2 ^ 149
  | _ => 0

/-- The last bit of the significand is 0.  (For a normal number the significand is the 24-bit integer left after
dividing by the unit in the last place; for a subnormal the unit is `2^-149`.) -/
def EvenSig : F32 → Prop
  | fin _ k _ => (k / 2 ^ (k.log2 - 23)) % 2 = 0
  | _ => False

/-- `r` is what IEEE-754 `roundTiesToEven` makes of the real number `x` in binary32: infinity with the sign of `x` from
`2^128 - 2^103` (half a unit above the largest finite number) on, otherwise the closest finite number, the even one of
two equally close, with the sign of `x`. -/
structure Rounds (x : ℚ) (r : F32) : Prop where
  over : 2 ^ 128 - 2 ^ 103 ≤ |x| → r = inf (decide (x < 0))
  finite : |x| < 2 ^ 128 - 2 ^ 103 → ∃ s k h, r = fin s k h ∧ (x ≠ 0 → s = decide (x < 0))
  near : |x| < 2 ^ 128 - 2 ^ 103 → ∀ s k h, |x - r.val| ≤ |x - (fin s k h).val|
  even : |x| < 2 ^ 128 - 2 ^ 103 →
    ∀ s k h, (fin s k h).val ≠ r.val → |x - r.val| = |x - (fin s k h).val| → r.EvenSig

end F32
end Rtbvh
