import Verif.Spec.Rounding
import Verif.Spec.Triangle
/-
Single precision against exact geometry: what it means that a ray given in `f32` meets a box given in `f32`, computed in
rational numbers without any rounding.
-/
namespace Rtbvh

/-- The exact values of the lanes. -/
def Vec3.exact (v : Vec3 F32) : Vec3 Rat := ⟨v.x.val, v.y.val, v.z.val⟩
/-- The box between the exact values. -/
def Aabb.exact (a : Aabb F32) : Aabb Rat := { min := a.min.exact, extra1 := 0, max := a.max.exact, extra2 := 0 }
/-- The triangle between the exact values. -/
def Triangle.exact (t : Triangle F32) : Triangle Rat := ⟨t.v0.exact, t.v1.exact, t.v2.exact⟩
/-- The point `o + s * d`, without rounding. -/
def pointOn (o d : Vec3 F32) (s : Rat) : Vec3 Rat :=
  ⟨o.x.val + s * d.x.val, o.y.val + s * d.y.val, o.z.val + s * d.z.val⟩

/-- A finite number. -/
def F32.IsFin (x : F32) : Prop := ∃ s k h, x = .fin s k h
/-- A coordinate of at most 200 in absolute value. -/
def F32.Moderate (x : F32) : Prop := x.IsFin ∧ |x.val| ≤ 200
/-- All coordinates are at most 200 in absolute value. -/
def Vec3.Moderate (v : Vec3 F32) : Prop := v.x.Moderate ∧ v.y.Moderate ∧ v.z.Moderate
/-- All sides of the box are at most 200 away from 0. -/
def Aabb.Moderate (a : Aabb F32) : Prop := a.min.Moderate ∧ a.max.Moderate
/-- A direction component: one of the two zeros, or of a size between `2^-100` and `2^100` (about 1e-30 and 1e30). -/
def F32.Ordinary (d : F32) : Prop := d.IsFin ∧ (d.val = 0 ∨ (1 / 2 ^ 100 ≤ |d.val| ∧ |d.val| ≤ 2 ^ 100))
/-- All components of the direction are ordinary. -/
def Vec3.Ordinary (v : Vec3 F32) : Prop := v.x.Ordinary ∧ v.y.Ordinary ∧ v.z.Ordinary
/-- The number is not `-0.0`. -/
def F32.NoNegZero (d : F32) : Prop := ∀ h, d ≠ .fin true 0 h
/-- No component is `-0.0`. -/
def Vec3.NoNegZero (v : Vec3 F32) : Prop := v.x.NoNegZero ∧ v.y.NoNegZero ∧ v.z.NoNegZero
/-- The float is larger than the exact number `s`. -/
def F32.Above (x : F32) (s : Rat) : Prop := x = .inf false ∨ (x.IsFin ∧ s < x.val)
/-- The float is smaller than the exact number `s`. -/
def F32.Below (x : F32) (s : Rat) : Prop := x = .inf true ∨ (x.IsFin ∧ x.val < s)

end Rtbvh
