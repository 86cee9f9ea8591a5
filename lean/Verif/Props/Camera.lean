import Verif.Spec.Camera
import Verif.Model.Exact
import Verif.Proofs.ExactLaws
import Verif.Props.Example
/- Property C108: the field of view of the example camera. -/
namespace Rtbvh
open FloatOps

theorem screenSize_eq (tan : Rat → Rat) (pi : Rat) (c : Camera Rat) : c.screenSize tan pi = tan (c.halfAngle pi) := by
  have h5 : (lit 5 (-1) : Rat) = 1 / 2 := by decide +kernel
  have h180 : (lit 180 0 : Rat) = 180 := by decide +kernel
  show tan (c.fov * lit 5 (-1) / (lit 180 0 / pi)) = _
  rw [h5, h180]
  unfold Camera.halfAngle
  congr 1
  rw [div_div_eq_mul_div]
  ring

/-- The edges of the screen after any move or turn. -/
theorem setScreen_edges (tan : Rat → Rat) (pi : Rat) (c : Camera Rat) :
    let s := c.setScreen tan pi
    let h := tan (c.halfAngle pi)
    s.direction = c.direction ∧ s.up = ⟨0, -(2 * h), 0⟩ ∧
    s.right = ⟨-(2 * h * c.aspectRatio * c.direction.z), 0, 2 * h * c.aspectRatio * c.direction.x⟩ := by
  have ha : ∀ a b : Rat, a +. b = a + b := fun _ _ => rfl
  have hs : ∀ a b : Rat, a -. b = a - b := fun _ _ => rfl
  have hm : ∀ a b : Rat, a *. b = a * b := fun _ _ => rfl
  simp only [Camera.setScreen, screenSize_eq, Vec3.add, Vec3.sub, Vec3.lscale, Vec3.scale, Vec3.cross, unitY, Vec3.map2,
    ha, hs, hm, rat_zero, rat_one]
  generalize tan (c.halfAngle pi) = z
  refine ⟨trivial, ?_, ?_⟩ <;> rw [Vec3.mk.injEq]
  · exact ⟨by ring, by ring, by ring⟩
  · exact ⟨by ring, by ring, by ring⟩

theorem rat_dot (a b : Vec3 Rat) : a.dot b = a.x * b.x + a.y * b.y + a.z * b.z := rfl

/-- C108, the part that holds: a camera that looks level (and whose `direction` has length one) frames `2 tan(fov / 2)` in
height and `aspect_ratio` times that in width, `fov` in degrees.  For any direction the screen is a rectangle of that height
whose horizontal edge lies across the direction of view, and is shorter than that width by the length of the direction's
horizontal part. -/
theorem C108_frames_partial (tan : Rat → Rat) (pi : Rat) (c : Camera Rat) :
    let s := c.setScreen tan pi
    let h := 2 * tan (c.halfAngle pi)
    (c.direction.y = 0 → c.direction.dot c.direction = 1 → s.Frames (c.aspectRatio * h) h) ∧
    s.right.dot s.direction = 0 ∧ s.right.dot s.up = 0 ∧ s.up.dot s.up = h * h ∧
    s.right.dot s.right = (c.aspectRatio * h) * (c.aspectRatio * h) *
      (c.direction.x * c.direction.x + c.direction.z * c.direction.z) := by
  intro s h
  obtain ⟨e1, e2, e3⟩ := setScreen_edges tan pi c
  change s.direction = _ at e1
  change s.up = _ at e2
  change s.right = _ at e3
  have r1 : s.right.dot s.direction = 0 := by rw [e1, e3, rat_dot]; ring
  have r2 : s.right.dot s.up = 0 := by rw [e2, e3, rat_dot]; ring
  have r3 : s.up.dot s.up = h * h := by rw [e2, rat_dot]; ring
  have r4 : s.right.dot s.right = (c.aspectRatio * h) * (c.aspectRatio * h) *
      (c.direction.x * c.direction.x + c.direction.z * c.direction.z) := by rw [e3, rat_dot]; ring
  refine ⟨fun hy hd => ⟨⟨r1, ?_⟩, r2, ?_, r3⟩, r1, r2, r3, r4⟩
  · rw [e1, e2, rat_dot, hy]; ring
  · rw [rat_dot, hy] at hd
    have hd' : c.direction.x * c.direction.x + c.direction.z * c.direction.z = 1 := by rw [← hd]; ring
    rw [r4, hd']; ring

/-- C108 as stated is false: a camera that looks up (its `direction` is the unit vector (0, 4/5, 3/5)) with a field of view
of 90 degrees (`tan` of 45 degrees is 1) and a square picture: the screen, two units high, is not across the direction of
view, and only six fifths of a unit wide. -/
theorem C108_looking_up_narrows : ∃ c : Camera Rat, c.direction.dot c.direction = 1 ∧ c.aspectRatio = 1 ∧ c.fov = 90 ∧
    ∀ (tan : Rat → Rat) (pi : Rat), tan (pi / 4) = 1 →
      let s := c.setScreen tan pi
      s.up.dot s.direction ≠ 0 ∧ s.up.dot s.up = 2 * 2 ∧ s.right.dot s.right = (6 / 5) * (6 / 5) ∧
      ¬ s.Frames (c.aspectRatio * (2 * tan (c.halfAngle pi))) (2 * tan (c.halfAngle pi)) := by
  refine ⟨⟨⟨0, 0, 0⟩, ⟨0, 0, 0⟩, ⟨0, 0, 0⟩, ⟨0, 0, 0⟩, ⟨0, 4 / 5, 3 / 5⟩, 1, 1, 1, 90⟩, by rw [rat_dot]; norm_num, rfl, rfl, ?_⟩
  intro tan pi ht
  simp only
  generalize hc : (⟨⟨0, 0, 0⟩, ⟨0, 0, 0⟩, ⟨0, 0, 0⟩, ⟨0, 0, 0⟩, ⟨0, 4 / 5, 3 / 5⟩, 1, 1, 1, 90⟩ : Camera Rat) = c
  obtain ⟨e1, e2, e3⟩ := setScreen_edges tan pi c
  have hd : c.direction = ⟨0, 4 / 5, 3 / 5⟩ := by rw [← hc]
  have ha : c.aspectRatio = 1 := by rw [← hc]
  have hh : tan (c.halfAngle pi) = 1 := by
    rw [show c.halfAngle pi = pi / 4 by rw [← hc]; unfold Camera.halfAngle; ring]; exact ht
  rw [hh, hd, ha] at e3
  rw [hh] at e2
  rw [hd] at e1
  have hu : (c.setScreen tan pi).up.dot (c.setScreen tan pi).direction ≠ 0 := by rw [e1, e2, rat_dot]; norm_num
  exact ⟨hu, by rw [e2, rat_dot]; norm_num, by rw [e3, rat_dot]; norm_num, fun h => hu h.across.2⟩

/-- C108: a camera that looks straight up or down shoots the same ray for every pixel of a row. -/
theorem C108_straight_up (sqrt tan : Rat → Rat) (pi : Rat) (c : Camera Rat) (h : c.direction.x = 0 ∧ c.direction.z = 0)
    (x x' y : Nat) :
    (c.setScreen tan pi).generateRay sqrt x y = (c.setScreen tan pi).generateRay sqrt x' y := by
  obtain ⟨_, _, e3⟩ := setScreen_edges tan pi c
  rw [h.1, h.2] at e3
  have ha : ∀ a b : Rat, a +. b = a + b := fun _ _ => rfl
  have hm : ∀ a b : Rat, a *. b = a * b := fun _ _ => rfl
  unfold Camera.generateRay Camera.pixelPoint
  rw [e3]
  simp only [Vec3.add, Vec3.lscale, Vec3.map2, ha, hm, mul_zero, neg_zero]

/-- Non-vacuity: a level camera, 90 degrees, twice as wide as high. -/
example : (Camera.setScreen (fun _ => 1) 4 ⟨⟨0, 0, 0⟩, ⟨0, 0, 0⟩, ⟨0, 0, 0⟩, ⟨0, 0, 0⟩, ⟨3 / 5, 0, 4 / 5⟩, 1, 1, 2, 90⟩).Frames 4 2 := by
  have h := (C108_frames_partial (fun _ => 1) 4
    ⟨⟨0, 0, 0⟩, ⟨0, 0, 0⟩, ⟨0, 0, 0⟩, ⟨0, 0, 0⟩, ⟨3 / 5, 0, 4 / 5⟩, 1, 1, 2, 90⟩).1 rfl (by rw [rat_dot]; norm_num)
  norm_num at h
  exact h

end Rtbvh
