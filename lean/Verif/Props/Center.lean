import Verif.Proofs.Midpoint
import Verif.Proofs.F32Laws
import Verif.Spec.Box
import Verif.Spec.Bounded
import Verif.Model.Builder
/- C104: the centre of a box in single precision, and boxes used as primitives. -/
namespace Rtbvh
open FloatOps Aabb
open F32 (Rounds fin inf midpoint_rounds abs_val abs_val_le le_val half_fin add_rounds fin_lt_top)

/-- Componentwise: `r` is the correctly rounded midpoint of `a` and `b`. -/
def Vec3.RoundsMid (a b r : Vec3 F32) : Prop :=
  Rounds ((a.x.val + b.x.val) / 2) r.x ∧ Rounds ((a.y.val + b.y.val) / 2) r.y ∧ Rounds ((a.z.val + b.z.val) / 2) r.z

/-- One axis: the sum of two ordered finite numbers overflows, or half of it lies between them. -/
theorem mid_between {a b : F32} (ha : Fin' a) (hb : Fin' b) (h : (a <=. b) = true) :
    Fin' (a +. b) ↔ (a <=. (a +. b) *. lit 5 (-1)) = true ∧ ((a +. b) *. lit 5 (-1) <=. b) = true := by
  have ha' := fin_f32.1 ha
  have hb' := fin_f32.1 hb
  constructor
  · intro hs
    have hm := midpoint_rounds ha' hb' rfl (fin_f32.1 hs)
    have hlt : |(a.val + b.val) / 2| < 2 ^ 128 - 2 ^ 103 := by
      obtain ⟨s, k, hk, rfl⟩ := ha'
      obtain ⟨s', k', hk', rfl⟩ := hb'
      have h1 := abs_val_le s hk
      have h2 := abs_val_le s' hk'
      rw [abs_div, abs_two]
      have := abs_add_le (fin s k hk).val (fin s' k' hk').val
      norm_num at *
      linarith
    obtain ⟨s, k, hk, e, -⟩ := hm.finite hlt
    have hle : a.val ≤ b.val := by
      obtain ⟨s, k, hk, rfl⟩ := ha'
      obtain ⟨s', k', hk', rfl⟩ := hb'
      exact (le_val s s' hk hk').1.1 h
    obtain ⟨g1, g2⟩ := hm.between ha' hb' hle ⟨s, k, hk, e⟩
    obtain ⟨s1, k1, hk1, rfl⟩ := ha'
    obtain ⟨s2, k2, hk2, rfl⟩ := hb'
    show (F32.le _ (F32.mul (F32.add _ _) _)) = true ∧ F32.le (F32.mul (F32.add _ _) _) _ = true
    rw [e] at g1 g2 ⊢
    exact ⟨(le_val _ _ _ _).1.2 g1, (le_val _ _ _ _).1.2 g2⟩
  · rintro ⟨h1, h2⟩
    have hc : Fin' ((a +. b) *. lit 5 (-1)) := LawfulFloat.fin_between ha hb h1 h2
    obtain ⟨s, k, hk, e⟩ := fin_f32.1 hc
    obtain ⟨hh, eh⟩ := half_fin
    have e' : F32.mul (a +. b) (lit 5 (-1)) = fin s k hk := e
    rw [eh] at e'
    refine fin_f32.2 ?_
    cases hsum : (a +. b) with
    | nan => rw [hsum] at e'; cases e'
    | inf t => rw [hsum] at e'; simp [F32.mul] at e'
    | fin t j hj => exact ⟨t, j, hj, rfl⟩

/-- C104: in single precision the centre of a box with finite corners lies in the box exactly if no sum `min + max`
overflows, and then every coordinate of it is the correctly rounded exact midpoint (rounded once, although the code rounds
twice). -/
theorem C104_center (a : Aabb F32) (hv : a.Valid) (hmin : a.min.Finite) (hmax : a.max.Finite) :
    (a.Has a.center ↔ (a.min.add a.max).Finite) ∧
    ((a.min.add a.max).Finite → a.min.RoundsMid a.max a.center) := by
  obtain ⟨m1, m2, m3⟩ := hmin
  obtain ⟨M1, M2, M3⟩ := hmax
  obtain ⟨v1, v2, v3⟩ := hv
  have x := mid_between m1 M1 v1
  have y := mid_between m2 M2 v2
  have z := mid_between m3 M3 v3
  refine ⟨⟨?_, ?_⟩, ?_⟩
  · rintro ⟨⟨a1, a2, a3⟩, b1, b2, b3⟩
    exact ⟨x.2 ⟨a1, b1⟩, y.2 ⟨a2, b2⟩, z.2 ⟨a3, b3⟩⟩
  · rintro ⟨h1, h2, h3⟩
    exact ⟨⟨(x.1 h1).1, (y.1 h2).1, (z.1 h3).1⟩, (x.1 h1).2, (y.1 h2).2, (z.1 h3).2⟩
  · rintro ⟨h1, h2, h3⟩
    exact ⟨midpoint_rounds (fin_f32.1 m1) (fin_f32.1 M1) rfl (fin_f32.1 h1),
      midpoint_rounds (fin_f32.1 m2) (fin_f32.1 M2) rfl (fin_f32.1 h2),
      midpoint_rounds (fin_f32.1 m3) (fin_f32.1 M3) rfl (fin_f32.1 h3)⟩

/-- C104: coordinates of magnitude up to `1.7e38` (half of `f32::MAX`) are enough: a box used as a primitive then answers itself
and its rounded midpoint, which is inside. -/
theorem C104_primitive (a : Aabb F32) (hv : a.Valid)
    (hb : ∀ i : Fin 3, (FloatOps.abs (a.min.get i) <=. lit 17 37) = true ∧ (FloatOps.abs (a.max.get i) <=. lit 17 37) = true) :
    (Prim.ofAabb a).aabb = a ∧ a.Has (Prim.ofAabb a).center ∧ a.min.RoundsMid a.max (Prim.ofAabb a).center := by
  have key : ∀ u v : F32, (FloatOps.abs u <=. lit 17 37) = true → (FloatOps.abs v <=. lit 17 37) = true →
      Fin' u ∧ Fin' v ∧ Fin' (u +. v) := by
    obtain ⟨s0, k0, h0, e0, hk⟩ : ∃ s k h, (lit 17 37 : F32) = fin s k h ∧ s = false ∧ 2 * k + 1 < (2 ^ 24 - 1) * 2 ^ 253 :=
      ⟨_, _, _, rfl, by decide +kernel, by decide +kernel⟩
    intro u v hu hv
    rw [e0] at hu hv
    have fu : ∀ w : F32, (FloatOps.abs w <=. fin s0 k0 h0) = true → ∃ s k h, w = fin s k h ∧ k ≤ k0 := by
      intro w hw
      obtain ⟨rfl, -⟩ := hk
      cases w with
      | nan => cases hw
      | inf s =>
        have : (f32Top : Int) ≤ (k0 : Int) := by
          simpa [FloatOps.le, FloatOps.abs, F32.abs, F32.le, F32.isNaN, F32.ord] using hw
        have := fin_lt_top k0 h0
        omega
      | fin s k h =>
        refine ⟨s, k, h, rfl, ?_⟩
        have : (k : Int) ≤ (k0 : Int) := by
          simpa [FloatOps.le, FloatOps.abs, F32.abs, F32.le, F32.isNaN, F32.ord] using hw
        omega
    obtain ⟨s, k, h, rfl, l1⟩ := fu u hu
    obtain ⟨s', k', h', rfl, l2⟩ := fu v hv
    refine ⟨fin_f32.2 ⟨_, _, _, rfl⟩, fin_f32.2 ⟨_, _, _, rfl⟩, fin_f32.2 ?_⟩
    have hR := add_rounds s s' h h'
    have : |(fin s k h).val + (fin s' k' h').val| < 2 ^ 128 - 2 ^ 103 := by
      refine (abs_add_le _ _).trans_lt ?_
      rw [abs_val, abs_val, ← add_div, div_lt_iff₀ (by positivity)]
      have h3 : k + k' < (2 ^ 24 - 1) * 2 ^ 253 := by
        have := hk.2
        generalize (2 ^ 24 - 1) * 2 ^ 253 = X at *
        omega
      have h4 : (k : ℚ) + k' < (((2 ^ 24 - 1) * 2 ^ 253 : Nat) : ℚ) := by exact_mod_cast h3
      refine h4.trans ?_
      norm_num
    obtain ⟨t, j, hj, e, -⟩ := hR.finite this
    exact ⟨t, j, hj, e⟩
  have kx := key _ _ (hb 0).1 (hb 0).2
  have ky := key _ _ (hb 1).1 (hb 1).2
  have kz := key _ _ (hb 2).1 (hb 2).2
  have hc := C104_center a hv ⟨kx.1, ky.1, kz.1⟩ ⟨kx.2.1, ky.2.1, kz.2.1⟩
  exact ⟨rfl, hc.1.2 ⟨kx.2.2, ky.2.2, kz.2.2⟩, hc.2 ⟨kx.2.2, ky.2.2, kz.2.2⟩⟩

/-- Both cases occur: a small box with its centre, and a box of two large coordinates whose centre is infinite. -/
example :
    let a : Aabb F32 := ofPoints2 ⟨lit 1 (-1), lit 0 0, lit (-3) 0⟩ ⟨lit 7 (-1), lit 2 0, lit 5 0⟩
    let b : Aabb F32 := ofPoints2 ⟨lit 2 38, lit 0 0, lit 0 0⟩ ⟨lit 3 38, lit 1 0, lit 1 0⟩
    a.Valid ∧ a.min.Finite ∧ a.max.Finite ∧ (a.min.add a.max).Finite ∧ a.Has a.center ∧
    b.Valid ∧ b.min.Finite ∧ b.max.Finite ∧ ¬ b.Has b.center ∧ b.center.x = inf false ∧
    (∀ i : Fin 3, (FloatOps.abs (a.min.get i) <=. lit 17 37) = true ∧ (FloatOps.abs (a.max.get i) <=. lit 17 37) = true) := by
  unfold Vec3.Finite Fin' Aabb.Has Aabb.Valid Vec3.Le; decide +kernel

end Rtbvh
