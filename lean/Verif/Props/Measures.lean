import Verif.Props.Locb
import Verif.Props.Exact
import Mathlib.Tactic.LinearCombination
/- Properties C65 (`Ray` construction and reflection) and C66 (`Aabb` measures). -/
namespace Rtbvh
open FloatOps Aabb

/-! C65 -/
section any
variable {F : Type} [FloatOps F]

/-- C65, any float behaviour: both constructors agree, a reflected ray is a fresh ray (limits reset, reciprocals and signs
recomputed from the new direction) starting at `hit_point + direction * epsilon`, and `reset` restores `t` only. -/
theorem C65_constructors (o d : Vec3 F) (r : Ray F) (p n : Vec3 F) (eps : F) :
    Ray.ofPair (o, d) = Ray.new o d ∧ (Ray.new o d).toPair = (o, d) ∧
    (r.reflect p n eps) = Ray.new (p.add ((r.reflect p n eps).direction.scale eps)) (r.reflect p n eps).direction ∧
    r.reset = { r with t := (Ray.new o d).t } := ⟨rfl, rfl, rfl, rfl⟩

end any

/-- C65: a fresh, a reflected and a reset ray count as "no hit yet" (`is_valid` is false); a ray whose `t` has been set to
anything below `1e33` counts as a hit.  In binary32 and in exact arithmetic. -/
theorem C65_validity :
    (∀ (o d : Vec3 F32), (Ray.new o d).isValid = false) ∧
    (∀ (r : Ray F32) (p n : Vec3 F32) (eps : F32), (r.reflect p n eps).isValid = false ∧ r.reset.isValid = false) ∧
    (∀ (r : Ray F32) (t : F32), (t <. lit 1 33) = true → ({ r with t := t } : Ray F32).isValid = true) ∧
    (∀ (o d : Vec3 Rat), (Ray.new o d).isValid = false) ∧
    (∀ (r : Ray Rat) (p n : Vec3 Rat) (eps : Rat), (r.reflect p n eps).isValid = false ∧ r.reset.isValid = false) ∧
    (∀ (r : Ray Rat) (t : Rat), t < 10 ^ 33 → ({ r with t := t } : Ray Rat).isValid = true) := by
  have h32 : ((Ray.defaultTMax : F32) <. lit 1 33) = false := by decide +kernel
  have hq : ((Ray.defaultTMax : Rat) <. lit 1 33) = false := by decide +kernel
  refine ⟨fun _ _ => h32, fun _ _ _ _ => ⟨h32, h32⟩, fun _ _ h => h, fun _ _ => hq, fun _ _ _ _ => ⟨hq, hq⟩, ?_⟩
  intro r t h
  show (t <. (lit 1 33 : Rat)) = true
  rw [rat_lt]
  have e : (lit 1 33 : Rat) = 10 ^ 33 := by decide +kernel
  rw [e]; exact h

theorem rat_two : (lit 2 0 : Rat) = 2 := by decide +kernel

/-- C65, exact arithmetic: reflection at a unit normal flips the normal component, keeps every component perpendicular to
the normal, keeps the length, and reflecting the reflected ray at the same normal gives back the direction. -/
theorem C65_reflect (r : Ray Rat) (p n : Vec3 Rat) (eps : Rat) (hn : n.dot n = 1) :
    let r' := r.reflect p n eps
    r'.direction.dot n = -(r.direction.dot n) ∧
    (∀ v : Vec3 Rat, v.dot n = 0 → r'.direction.dot v = r.direction.dot v) ∧
    r'.direction.dot r'.direction = r.direction.dot r.direction ∧
    (∀ p' eps', (r'.reflect p' n eps').direction = r.direction) := by
  obtain ⟨nx, ny, nz⟩ := n
  obtain ⟨o, tm, ⟨dx, dy, dz⟩, t, i, s1, s2, s3⟩ := r
  change nx * nx + ny * ny + nz * nz = 1 at hn
  have e : ∀ o tm t i s1 s2 s3 p eps (dx dy dz : Rat),
      ((⟨o, tm, ⟨dx, dy, dz⟩, t, i, s1, s2, s3⟩ : Ray Rat).reflect p ⟨nx, ny, nz⟩ eps).direction =
      ⟨dx - nx * (nx * dx + ny * dy + nz * dz) * 2, dy - ny * (nx * dx + ny * dy + nz * dz) * 2,
        dz - nz * (nx * dx + ny * dy + nz * dz) * 2⟩ := by
    intro o tm t i s1 s2 s3 p eps dx dy dz
    simp only [Ray.reflect, rat_two]; rfl
  intro r'
  have e' : r'.direction = _ := e o tm t i s1 s2 s3 p eps dx dy dz
  refine ⟨?_, ?_, ?_, ?_⟩
  · rw [e']
    change (dx - nx * (nx * dx + ny * dy + nz * dz) * 2) * nx + (dy - ny * (nx * dx + ny * dy + nz * dz) * 2) * ny +
      (dz - nz * (nx * dx + ny * dy + nz * dz) * 2) * nz = -(dx * nx + dy * ny + dz * nz)
    linear_combination (-2 * (nx * dx + ny * dy + nz * dz)) * hn
  · rintro ⟨vx, vy, vz⟩ hv
    rw [e']
    change vx * nx + vy * ny + vz * nz = 0 at hv
    change (dx - nx * (nx * dx + ny * dy + nz * dz) * 2) * vx + (dy - ny * (nx * dx + ny * dy + nz * dz) * 2) * vy +
      (dz - nz * (nx * dx + ny * dy + nz * dz) * 2) * vz = dx * vx + dy * vy + dz * vz
    linear_combination (-2 * (nx * dx + ny * dy + nz * dz)) * hv
  · rw [e']
    change (dx - nx * (nx * dx + ny * dy + nz * dz) * 2) * (dx - nx * (nx * dx + ny * dy + nz * dz) * 2) +
      (dy - ny * (nx * dx + ny * dy + nz * dz) * 2) * (dy - ny * (nx * dx + ny * dy + nz * dz) * 2) +
      (dz - nz * (nx * dx + ny * dy + nz * dz) * 2) * (dz - nz * (nx * dx + ny * dy + nz * dz) * 2) =
      dx * dx + dy * dy + dz * dz
    linear_combination (4 * (nx * dx + ny * dy + nz * dz) ^ 2) * hn
  · intro p' eps'
    obtain ⟨o', tm', d', t', i', a, b, c⟩ := r'
    simp only at e'
    subst e'
    rw [e]
    simp only [Vec3.mk.injEq]
    refine ⟨?_, ?_, ?_⟩
    · linear_combination (4 * nx * (nx * dx + ny * dy + nz * dz)) * hn
    · linear_combination (4 * ny * (nx * dx + ny * dy + nz * dz)) * hn
    · linear_combination (4 * nz * (nx * dx + ny * dy + nz * dz)) * hn

/-- The unit normal (3/5, 4/5, 0) meets the hypothesis; a diagonal ray is turned around. -/
example : (⟨3 / 5, 4 / 5, 0⟩ : Vec3 Rat).dot ⟨3 / 5, 4 / 5, 0⟩ = 1 ∧
    ((Ray.new ⟨0, 0, 0⟩ ⟨1, 1, 1⟩ : Ray Rat).reflect ⟨1, 1, 1⟩ ⟨3 / 5, 4 / 5, 0⟩ (1 / 1000)).direction =
      ⟨-17 / 25, -31 / 25, 1⟩ := by decide +kernel

/-- C65, exact arithmetic: `get_point_at` runs along the ray from the origin, linearly. -/
theorem C65_points (r : Ray Rat) (s t : Rat) : r.getPointAt 0 = r.origin ∧
    r.getPointAt (s + t) = (r.getPointAt s).add (Vec3.lscale t r.direction) := by
  obtain ⟨⟨ox, oy, oz⟩, tm, ⟨dx, dy, dz⟩, t0, i, s1, s2, s3⟩ := r
  refine ⟨?_, ?_⟩
  · change (⟨ox + 0 * dx, oy + 0 * dy, oz + 0 * dz⟩ : Vec3 Rat) = ⟨ox, oy, oz⟩
    simp
  · change (⟨ox + (s + t) * dx, oy + (s + t) * dy, oz + (s + t) * dz⟩ : Vec3 Rat) =
      ⟨ox + s * dx + t * dx, oy + s * dy + t * dy, oz + s * dz + t * dz⟩
    simp only [Vec3.mk.injEq]
    refine ⟨?_, ?_, ?_⟩ <;> ring

/-! C66 -/
section lawful
variable {F : Type} [FloatOps F] [LawfulFloat F]
open LawfulFloat

/-- C66: `is_valid` answers whether the minimum is at most the maximum on all three axes; so it does exactly for the boxes
that have a point in them, and a box grown by a point is valid.  The empty box is not (binary32 and exact arithmetic). -/
theorem C66_valid (a : Aabb F) :
    (a.isValid = true ↔
      (a.min.x <=. a.max.x) = true ∧ (a.min.y <=. a.max.y) = true ∧ (a.min.z <=. a.max.z) = true) ∧
    (a.isValid = true ↔ ∃ p, a.Has p) ∧
    (∀ p : Vec3 F, p.Numeric → a.Numeric → (a.grow p).isValid = true) ∧
    (Aabb.empty : Aabb F32).isValid = false ∧ (Aabb.empty : Aabb Rat).isValid = false := by
  have key : ∀ b : Aabb F, b.isValid = true ↔
      (b.min.x <=. b.max.x) = true ∧ (b.min.y <=. b.max.y) = true ∧ (b.min.z <=. b.max.z) = true := by
    intro b
    simp [Aabb.isValid, Vec3.allLe, Bool.and_eq_true, and_assoc]
  refine ⟨key a, ⟨fun h => ?_, fun ⟨p, h1, h2⟩ => (key a).2 (h1.trans h2)⟩, fun p hp ha => (key _).2 ?_,
    by decide +kernel, by decide +kernel⟩
  · have hv : a.min.Le a.max := (key a).1 h
    exact ⟨a.min, Vec3.Le.refl hv.num_left, hv⟩
  · exact (Vec3.min_le_right ha.1 hp).trans (Vec3.le_max_right ha.2 hp)

example : (⟨⟨zero, zero, zero⟩, 0, ⟨zero, one, zero⟩, 0⟩ : Aabb F32).isValid = true := by decide +kernel
/-- One axis is enough to make a box invalid. -/
example : (⟨⟨zero, one, zero⟩, 0, ⟨zero, zero, zero⟩, 0⟩ : Aabb F32).isValid = false := by decide +kernel

/-- C66, with rounding: `longest_axis` is an axis of largest extent, the lowest-numbered one on a tie, and
`longest_extent` is that extent. -/
theorem C66_longest_axis (a : Aabb F) (h : a.diagonal.Numeric) :
    (∀ i : Fin 3, (a.extend i <=. a.extend a.longestAxis) = true) ∧
    (∀ i : Fin 3, i < a.longestAxis → (a.extend i <. a.extend a.longestAxis) = true) ∧
    a.longestExtent = a.extend a.longestAxis := by
  obtain ⟨hx, hy, hz⟩ := h
  have h0 : Num (a.extend 0) := hx
  have h1 : Num (a.extend 1) := hy
  have h2 : Num (a.extend 2) := hz
  have nlt : ∀ {x y : F}, Num x → Num y → ¬ (x <. y) = true → (y <=. x) = true := by
    intro x y nx ny hn
    by_contra hc
    exact hn (lt_iff.2 ⟨nx, ny, by simpa using hc⟩)
  have lle : ∀ {x y : F}, (x <. y) = true → (x <=. y) = true := fun h => le_of_lt' h
  refine ⟨?_, ?_, ?_⟩
  · intro i
    unfold longestAxis
    by_cases c1 : (a.extend 0 <. a.extend 1) = true
    · simp only [gt, c1, if_true]
      by_cases c2 : (a.extend 1 <. a.extend 2) = true
      · simp only [c2, if_true]
        match i with
        | 0 => exact le_trans (lle c1) (lle c2)
        | 1 => exact lle c2
        | 2 => exact le_refl h2
      · simp only [c2, Bool.false_eq_true, if_false]
        match i with
        | 0 => exact lle c1
        | 1 => exact le_refl h1
        | 2 => exact nlt h1 h2 c2
    · simp only [gt, c1, Bool.false_eq_true, if_false]
      by_cases c2 : (a.extend 0 <. a.extend 2) = true
      · simp only [c2, if_true]
        match i with
        | 0 => exact lle c2
        | 1 => exact le_trans (nlt h0 h1 c1) (lle c2)
        | 2 => exact le_refl h2
      · simp only [c2, Bool.false_eq_true, if_false]
        match i with
        | 0 => exact le_refl h0
        | 1 => exact nlt h0 h1 c1
        | 2 => exact nlt h0 h2 c2
  · intro i
    unfold longestAxis
    by_cases c1 : (a.extend 0 <. a.extend 1) = true
    · simp only [gt, c1, if_true]
      by_cases c2 : (a.extend 1 <. a.extend 2) = true
      · simp only [c2, if_true]
        intro hi
        match i, hi with
        | 0, _ => exact lt_iff.2 ⟨h0, h2, by
            by_contra hc
            have := le_trans (by simpa using hc) (lle c1)
            have := (lt_iff.1 c2).2.2
            simp_all⟩
        | 1, _ => exact c2
      · simp only [c2, Bool.false_eq_true, if_false]
        intro hi
        match i, hi with
        | 0, _ => exact c1
    · simp only [gt, c1, Bool.false_eq_true, if_false]
      by_cases c2 : (a.extend 0 <. a.extend 2) = true
      · simp only [c2, if_true]
        intro hi
        match i, hi with
        | 0, _ => exact c2
        | 1, _ => exact lt_iff.2 ⟨h1, h2, by
            by_contra hc
            have h21 : (a.extend 2 <=. a.extend 1) = true := by simpa using hc
            have := le_trans h21 (nlt h0 h1 c1)
            have := (lt_iff.1 c2).2.2
            simp_all⟩
      · simp only [c2, Bool.false_eq_true, if_false]
        intro hi
        exact absurd hi (by simp)
  · unfold longestExtent extend diagonal
    generalize a.longestAxis = i
    match i with
    | 0 => rfl
    | 1 => rfl
    | 2 => rfl

/-- C66, with rounding: a valid box inside `w` has no larger half area and no larger volume than `w`, and both measures are
non-negative, as long as the differences (and the sum in the formula) do not overflow.  So the SAH cost of a node never
falls below that of its children's boxes because of rounding. -/
theorem C66_monotone {a w : Aabb F} (hv : a.Valid) (hw : a.Within w) (hmin : w.min.Finite) (hmax : w.max.Finite)
    (hdg : w.diagonal.Finite) (hsum : Fin' (w.diagonal.x +. w.diagonal.y)) (hxy : Fin' (w.diagonal.x *. w.diagonal.y)) :
    (a.halfArea <=. w.halfArea) = true ∧ (zero <=. a.halfArea) = true ∧
    (a.volume <=. w.volume) = true ∧ (zero <=. a.volume) = true := by
  have key := halfArea_le hmin hmax hdg hsum ⟨hw, hv⟩
  obtain ⟨⟨a1, a2, a3⟩, b1, b2, b3⟩ := hw
  obtain ⟨c1, c2, c3⟩ := hv
  obtain ⟨f1, f2, f3⟩ := hmin
  obtain ⟨g1, g2, g3⟩ := hmax
  obtain ⟨d1, d2, d3⟩ := hdg
  obtain ⟨x1, x2, x3⟩ := diff_facts f1 g1 d1 a1 c1 b1
  obtain ⟨y1, y2, y3⟩ := diff_facts f2 g2 d2 a2 c2 b2
  obtain ⟨z1, z2, z3⟩ := diff_facts f3 g3 d3 a3 c3 b3
  refine ⟨key, ?_, ?_, ?_⟩
  · have n := (le_num key).1
    obtain ⟨n1, n2⟩ := add_num n
    exact add_nonneg (mul_nonneg (add_nonneg x2 y2) z2 n1) (mul_nonneg x2 y2 n2)
  all_goals
    change Fin' ((w.max.x -. w.min.x) *. (w.max.y -. w.min.y)) at hxy
    change Fin' (w.max.x -. w.min.x) at d1
    change Fin' (w.max.y -. w.min.y) at d2
    change Fin' (w.max.z -. w.min.z) at d3
    have p2 : ((a.max.x -. a.min.x) *. (a.max.y -. a.min.y) <=. (w.max.x -. w.min.x) *. (w.max.y -. w.min.y)) = true :=
      mul_mono2 x2 y2 x3 y3 (mul_fin_fin x1 y1) (mul_fin_fin d1 y1) (mul_fin_fin d1 d2)
    have p0 := mul_nonneg x2 y2 (mul_fin_fin x1 y1)
    have pf : Fin' ((a.max.x -. a.min.x) *. (a.max.y -. a.min.y)) :=
      fin_between (lit_fin (m := 0) (e := 0) (by decide) (by decide) (by decide)) hxy p0 p2
  · exact mul_mono2 p0 z2 p2 z3 (mul_fin_fin pf z1) (mul_fin_fin hxy z1) (mul_fin_fin hxy d3)
  · exact mul_nonneg p0 z2 (mul_fin_fin pf z1)

end lawful

theorem rat_half : (lit 5 (-1) : Rat) = 1 / 2 := by decide +kernel

/-- C66, exact arithmetic: for a valid box with edge lengths `x, y, z`, `half_area` is half the surface area,
`area` is the same number (not the surface area), `volume` is `x*y*z`, and `center` is the midpoint and lies in the box. -/
theorem C66_exact (a : Aabb Rat) (hv : a.Valid) :
    let x := a.max.x - a.min.x
    let y := a.max.y - a.min.y
    let z := a.max.z - a.min.z
    a.halfArea = (2 * (x * y) + 2 * (y * z) + 2 * (z * x)) / 2 ∧ a.area = a.halfArea ∧ a.volume = x * y * z ∧
    (a.center.x - a.min.x = a.max.x - a.center.x ∧ a.center.y - a.min.y = a.max.y - a.center.y ∧
      a.center.z - a.min.z = a.max.z - a.center.z) ∧ a.Has a.center := by
  obtain ⟨c1, c2, c3⟩ := hv
  rw [rat_le] at c1 c2 c3
  intro x y z
  have hx : 0 ≤ x := sub_nonneg.2 c1
  have hy : 0 ≤ y := sub_nonneg.2 c2
  have hz : 0 ≤ z := sub_nonneg.2 c3
  have e1 : a.halfArea = (x + y) * z + x * y := rfl
  have e2 : a.center = ⟨(a.min.x + a.max.x) * (1 / 2), (a.min.y + a.max.y) * (1 / 2), (a.min.z + a.max.z) * (1 / 2)⟩ := by
    simp only [center, Vec3.scale, rat_half]; rfl
  refine ⟨by rw [e1]; ring, ?_, rfl, ?_, ?_⟩
  · have : a.area = FloatOps.max 0 (x * y + x * z + y * z) := by unfold area; rw [rat_zero]; rfl
    have hp : 0 ≤ x * y + x * z + y * z := by positivity
    rw [this, e1]
    show (if (0 : Rat) < x * y + x * z + y * z then x * y + x * z + y * z else 0) = _
    split
    · ring
    · have : x * y + x * z + y * z = 0 := by linarith
      linarith
  · rw [e2]; refine ⟨?_, ?_, ?_⟩ <;> ring
  · rw [e2]
    refine ⟨⟨?_, ?_, ?_⟩, ?_, ?_, ?_⟩ <;> rw [rat_le] <;> simp only <;> linarith

/-- A 1 x 2 x 3 box in a 2 x 3 x 4 box, binary32. -/
example : let a : Aabb F32 := ofPoints2 ⟨lit 0 0, lit 0 0, lit 0 0⟩ ⟨lit 1 0, lit 2 0, lit 3 0⟩
    let w : Aabb F32 := ofPoints2 ⟨lit (-1) 0, lit 0 0, lit 0 0⟩ ⟨lit 1 0, lit 3 0, lit 4 0⟩
    a.Valid ∧ a.Within w ∧ w.min.Finite ∧ w.max.Finite ∧ w.diagonal.Finite ∧ Fin' (w.diagonal.x +. w.diagonal.y) ∧
      Fin' (w.diagonal.x *. w.diagonal.y) ∧ a.longestAxis = 2 ∧ a.halfArea = lit 11 0 ∧ a.area = lit 11 0 ∧
      a.volume = lit 6 0 := by
  unfold Vec3.Finite Fin'; decide +kernel

end Rtbvh
