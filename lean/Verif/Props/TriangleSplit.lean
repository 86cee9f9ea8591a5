import Verif.Props.TrianglePacket
/- Property C41: clipping a triangle at a plane. -/
namespace Rtbvh
open FloatOps LawfulFloat

section
variable {F : Type} [FloatOps F] [LawfulFloat F]

theorem nan_of_not_num {x : F} (h : ¬ Num x) : FloatOps.isNaN x = true := by simpa [Num] using h

/-- Growing by a point, even one with NaN coordinates, loses nothing. -/
theorem Aabb.within_grow {a : Aabb F} (ha : a.Numeric) (p : Vec3 F) : a.Within (a.grow p) := by
  have hmin : ∀ {x y : F}, Num x → (FloatOps.min x y <=. x) = true := by
    intro x y hx
    by_cases hy : Num y
    · exact min_le_left' hx hy
    · rw [min_nan_right (nan_of_not_num hy) hx]; exact le_refl hx
  have hmax : ∀ {x y : F}, Num x → (x <=. FloatOps.max x y) = true := by
    intro x y hx
    by_cases hy : Num y
    · exact le_max_left' hx hy
    · rw [max_nan_right (nan_of_not_num hy) hx]; exact le_refl hx
  exact ⟨⟨hmin ha.1.1, hmin ha.1.2.1, hmin ha.1.2.2⟩, ⟨hmax ha.2.1, hmax ha.2.2.1, hmax ha.2.2.2⟩⟩

/-- Pairs of boxes, each within its counterpart. -/
def PairWithin (a b : Aabb F × Aabb F) : Prop := a.1.Within b.1 ∧ a.2.Within b.2

theorem growBoth_within {lr : Aabb F × Aabb F} (h1 : lr.1.Numeric) (h2 : lr.2.Numeric) (c : Bool) (m : Vec3 F) :
    PairWithin lr (growBoth c m lr) := by
  unfold growBoth
  split
  · exact ⟨Aabb.within_grow h1 m, Aabb.within_grow h2 m⟩
  · exact ⟨Aabb.Within.refl h1, Aabb.Within.refl h2⟩

theorem growIf_within {lr : Aabb F × Aabb F} (h1 : lr.1.Numeric) (h2 : lr.2.Numeric) {p : Vec3 F} (hp : p.Numeric) (q : Bool) :
    PairWithin lr (growIf q p lr) ∧ (q = true → (growIf q p lr).1.Has p) ∧ (q = false → (growIf q p lr).2.Has p) := by
  unfold growIf
  split
  · rename_i h
    refine ⟨⟨Aabb.within_grow h1 p, Aabb.Within.refl h2⟩, fun _ => ?_, fun h' => by rw [h] at h'; cases h'⟩
    exact ⟨Vec3.min_le_right h1.1 hp, Vec3.le_max_right h1.2 hp⟩
  · rename_i h
    refine ⟨⟨Aabb.Within.refl h1, Aabb.within_grow h2 p⟩, fun h' => absurd h' h, fun _ => ?_⟩
    exact ⟨Vec3.min_le_right h2.1 hp, Vec3.le_max_right h2.2 hp⟩

theorem PairWithin.num {a b : Aabb F × Aabb F} (h : PairWithin a b) : b.1.Numeric ∧ b.2.Numeric :=
  ⟨h.1.num_right, h.2.num_right⟩
theorem PairWithin.trans {a b c : Aabb F × Aabb F} (h : PairWithin a b) (h' : PairWithin b c) : PairWithin a c :=
  ⟨h.1.trans h'.1, h.2.trans h'.2⟩

/-- The boxes of the provided `split` are NaN-free, whatever the triangle and the plane. -/
theorem Triangle.split_num (tr : Triangle F) (axis : Fin 3) (pos : F) :
    (tr.split axis pos).1.Numeric ∧ (tr.split axis pos).2.Numeric := by
  have both : ∀ {lr : Aabb F × Aabb F}, lr.1.Numeric ∧ lr.2.Numeric → ∀ c m,
      (growBoth c m lr).1.Numeric ∧ (growBoth c m lr).2.Numeric :=
    fun h c m => (growBoth_within h.1 h.2 c m).num
  have one : ∀ {lr : Aabb F × Aabb F}, lr.1.Numeric ∧ lr.2.Numeric → ∀ q p,
      (growIf q p lr).1.Numeric ∧ (growIf q p lr).2.Numeric := by
    intro lr h q p
    unfold growIf
    split
    · exact ⟨(Aabb.within_grow h.1 p).num_right, h.2⟩
    · exact ⟨h.1, (Aabb.within_grow h.2 p).num_right⟩
  unfold Triangle.split
  exact both (both (both (one (one (one ⟨Aabb.new_numeric, Aabb.new_numeric⟩ _ _) _ _) _ _) _ _) _ _) _ _

/-- C41, the part that holds (rounded arithmetic, whatever the computed crossing points are): every vertex on the lower
side of the plane is in the first box, every other vertex is in the second box. -/
theorem C41_vertices_partial (tr : Triangle F) (axis : Fin 3) (pos : F) (h0 : tr.v0.Numeric) (h1 : tr.v1.Numeric)
    (h2 : tr.v2.Numeric) : ∀ v ∈ [tr.v0, tr.v1, tr.v2],
      ((v.get axis <=. pos) = true → (tr.split axis pos).1.Has v) ∧
      ((v.get axis <=. pos) = false → (tr.split axis pos).2.Has v) := by
  unfold Triangle.split
  simp only
  generalize splitEdge axis pos tr.v0 tr.v1 = m01
  generalize splitEdge axis pos tr.v1 tr.v2 = m12
  generalize splitEdge axis pos tr.v2 tr.v0 = m20
  have start : (Aabb.empty : Aabb F).Numeric := Aabb.new_numeric
  generalize (Aabb.empty : Aabb F) = e at start
  obtain ⟨w0, l0, r0⟩ := growIf_within (lr := (e, e)) start start h0 (tr.v0.get axis <=. pos)
  generalize growIf (tr.v0.get axis <=. pos) tr.v0 (e, e) = a0 at w0 l0 r0
  obtain ⟨w1, l1, r1⟩ := growIf_within w0.num.1 w0.num.2 h1 (tr.v1.get axis <=. pos)
  generalize growIf (tr.v1.get axis <=. pos) tr.v1 a0 = a1 at w1 l1 r1
  obtain ⟨w2, l2, r2⟩ := growIf_within w1.num.1 w1.num.2 h2 (tr.v2.get axis <=. pos)
  generalize growIf (tr.v2.get axis <=. pos) tr.v2 a1 = a2 at w2 l2 r2
  have w3 := growBoth_within w2.num.1 w2.num.2 ((tr.v0.get axis <=. pos) != (tr.v1.get axis <=. pos)) m01
  have w4 := growBoth_within w3.num.1 w3.num.2 ((tr.v1.get axis <=. pos) != (tr.v2.get axis <=. pos)) m12
  have w5 := growBoth_within w4.num.1 w4.num.2 ((tr.v2.get axis <=. pos) != (tr.v0.get axis <=. pos)) m20
  have w := (w3.trans w4).trans w5
  intro v hv
  simp only [List.mem_cons, List.not_mem_nil, or_false] at hv
  rcases hv with rfl | rfl | rfl
  · exact ⟨fun h => ((w1.trans w2).trans w).1.has (l0 h), fun h => ((w1.trans w2).trans w).2.has (r0 h)⟩
  · exact ⟨fun h => (w2.trans w).1.has (l1 h), fun h => (w2.trans w).2.has (r1 h)⟩
  · exact ⟨fun h => w.1.has (l2 h), fun h => w.2.has (r2 h)⟩

omit [LawfulFloat F] in
/-- C41: if the plane does not separate the vertices, the box of the other side stays empty. -/
theorem C41_one_sided_empty (tr : Triangle F) (axis : Fin 3) (pos : F) :
    ((∀ v ∈ [tr.v0, tr.v1, tr.v2], (v.get axis <=. pos) = true) → (tr.split axis pos).2 = Aabb.empty) ∧
    ((∀ v ∈ [tr.v0, tr.v1, tr.v2], (v.get axis <=. pos) = false) → (tr.split axis pos).1 = Aabb.empty) := by
  constructor
  · intro h
    have a := h tr.v0 (by simp); have b := h tr.v1 (by simp); have c := h tr.v2 (by simp)
    simp only [Triangle.split, a, b, c, growBoth, growIf]; rfl
  · intro h
    have a := h tr.v0 (by simp); have b := h tr.v1 (by simp); have c := h tr.v2 (by simp)
    simp only [Triangle.split, a, b, c, growBoth, growIf]; rfl
end

/-- C41 in exact arithmetic, the part that holds: if the plane does not separate the vertices, the box of the vertices'
side contains every point of the triangle. -/
theorem C41_unclipped_partial (tr : Triangle Rat) (axis : Fin 3) (pos : Rat) (p : Vec3 Rat) (hp : tr.Has p) :
    ((∀ v ∈ [tr.v0, tr.v1, tr.v2], v.get axis ≤ pos) → (tr.split axis pos).1.Has p) ∧
    ((∀ v ∈ [tr.v0, tr.v1, tr.v2], pos < v.get axis) → (tr.split axis pos).2.Has p) := by
  have num : ∀ v : Vec3 Rat, v.Numeric := fun v => ⟨rfl, rfl, rfl⟩
  have hv := C41_vertices_partial tr axis pos (num _) (num _) (num _)
  constructor
  · intro h
    exact C39_hit_in_box tr p hp _ ((hv _ (by simp)).1 (rat_le.2 (h _ (by simp))))
      ((hv _ (by simp)).1 (rat_le.2 (h _ (by simp)))) ((hv _ (by simp)).1 (rat_le.2 (h _ (by simp))))
  · intro h
    have f : ∀ v ∈ [tr.v0, tr.v1, tr.v2], (v.get axis <=. pos) = false := by
      intro v hm
      rw [← Bool.not_eq_true, rat_le]
      exact not_le.2 (h v hm)
    exact C39_hit_in_box tr p hp _ ((hv _ (by simp)).2 (f _ (by simp)))
      ((hv _ (by simp)).2 (f _ (by simp))) ((hv _ (by simp)).2 (f _ (by simp)))

/-- A triangle with corners (1,1,0), (3,1,0), (1,1.5,0). -/
def clipTri (F : Type) [FloatOps F] : Triangle F :=
  ⟨⟨lit 1 0, lit 1 0, zero⟩, ⟨lit 3 0, lit 1 0, zero⟩, ⟨lit 1 0, lit 15 (-1), zero⟩⟩

/-- C41 fails as stated: clipped at `x = 2`, the point (2, 1.25, 0) of the triangle lies on the plane but in neither of
the two boxes (exact arithmetic). -/
theorem C41_split_misses_exact :
    (clipTri Rat).Has ⟨2, 5 / 4, 0⟩ ∧ ¬ ((clipTri Rat).split 0 2).1.Has ⟨2, 5 / 4, 0⟩ ∧
      ¬ ((clipTri Rat).split 0 2).2.Has ⟨2, 5 / 4, 0⟩ := by
  refine ⟨⟨1 / 2, 1 / 2, by norm_num, by norm_num, by norm_num, ?_⟩, fun h => ?_, fun h => ?_⟩
  · decide +kernel
  · have := h.2.1
    revert this
    decide +kernel
  · have := h.2.2.1
    revert this
    decide +kernel

/-- The same in f32. -/
theorem C41_split_misses_f32 :
    ¬ ((clipTri F32).split 0 (lit 2 0)).1.Has ⟨lit 2 0, lit 125 (-2), zero⟩ ∧
    ¬ ((clipTri F32).split 0 (lit 2 0)).2.Has ⟨lit 2 0, lit 125 (-2), zero⟩ := by
  refine ⟨fun h => ?_, fun h => ?_⟩
  · have := h.2.1
    revert this
    decide +kernel
  · have := h.2.2.1
    revert this
    decide +kernel

/-- Non-vacuity: numeric vertices on both sides of the plane, and an unclipped one. -/
example : (clipTri F32).v0.Numeric ∧ ((clipTri F32).v0.get 0 <=. lit 2 0) = true ∧ ((clipTri F32).v1.get 0 <=. lit 2 0) = false := by
  unfold Vec3.Numeric
  decide +kernel
example : ∀ v ∈ [(clipTri Rat).v0, (clipTri Rat).v1, (clipTri Rat).v2], v.get 0 ≤ 3 := by decide +kernel

/-- Non-vacuity of C39/C40 in exact arithmetic: a ray through the inside of the triangle hits at 3, one beside it
misses, and the packet of both agrees. -/
example : ((clipTri Rat).intersect (Ray.new ⟨3 / 2, 9 / 8, -3⟩ ⟨0, 0, 1⟩)).2 = true ∧
    ((clipTri Rat).intersect (Ray.new ⟨3 / 2, 9 / 8, -3⟩ ⟨0, 0, 1⟩)).1.t = 3 ∧
    ((clipTri Rat).intersect (Ray.new ⟨3 / 2, 0, -3⟩ ⟨0, 0, 1⟩)).2 = false := by decide +kernel
example : (List.finRange 4).map (fun i => laneHit ((clipTri Rat).intersect4
    (RayPacket4.new (fun i => ⟨3 / 2, if i = 0 then 9 / 8 else 0, -3, 1⟩) (fun _ => ⟨0, 0, 1, 0⟩)) (Vec4.splat 0)).2 i) =
    [true, false, false, false] := by decide +kernel

end Rtbvh
