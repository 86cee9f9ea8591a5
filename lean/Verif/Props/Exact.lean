import Verif.Proofs.ExactRay
import Verif.Spec.Closest
import Verif.Props.Slab
/- Properties in exact arithmetic: C35 (slab test), C31 (nearest hit), C44 (transformed boxes). -/
namespace Rtbvh
open Aabb

theorem vec3_le_rat {a b : Vec3 Rat} : a.Le b ↔ a.x ≤ b.x ∧ a.y ≤ b.y ∧ a.z ≤ b.z := by
  unfold Vec3.Le; rw [rat_le, rat_le, rat_le]
theorem has_rat {a : Aabb Rat} {p : Vec3 Rat} : a.Has p ↔
    (a.min.x ≤ p.x ∧ p.x ≤ a.max.x) ∧ (a.min.y ≤ p.y ∧ p.y ≤ a.max.y) ∧ (a.min.z ≤ p.z ∧ p.z ≤ a.max.z) := by
  unfold Aabb.Has; rw [vec3_le_rat, vec3_le_rat]; tauto
theorem nonZero_rat {a : Rat} : NonZero a ↔ a ≠ 0 := by
  unfold NonZero; rw [rat_lt, rat_lt, rat_zero]
  constructor
  · rintro (h | h) <;> [exact h.ne; exact h.ne']
  · exact lt_or_gt_of_ne

/-- The box test at a parameter, per axis. -/
theorem has_getPointAt {a : Aabb Rat} {r : Ray Rat} (hw : r.WellFormed) (hd : r.direction.NonZero) (s : Rat) :
    a.Has (r.getPointAt s) ↔
      (nearP a.min.x a.max.x r.origin.x r.invDirection.x r.signX ≤ s ∧
        s ≤ nearP a.min.x a.max.x r.origin.x r.invDirection.x (!r.signX)) ∧
      (nearP a.min.y a.max.y r.origin.y r.invDirection.y r.signY ≤ s ∧
        s ≤ nearP a.min.y a.max.y r.origin.y r.invDirection.y (!r.signY)) ∧
      (nearP a.min.z a.max.z r.origin.z r.invDirection.z r.signZ ≤ s ∧
        s ≤ nearP a.min.z a.max.z r.origin.z r.invDirection.z (!r.signZ)) := by
  obtain ⟨h1, h2, h3, h4⟩ := hw
  rw [has_rat, h1, h2, h3, h4]
  have inv : ∀ d : Rat, FloatOps.div (FloatOps.one : Rat) d = 1 / d := by intro d; rw [rat_one]; rfl
  have sg : ∀ d : Rat, FloatOps.lt d (FloatOps.zero : Rat) = decide (d < 0) := by intro d; rw [rat_zero]; rfl
  simp only [recip3, Vec3.div, Vec3.map2, Vec3.splat, inv, sg]
  rw [← axis_rat (nonZero_rat.1 hd.1), ← axis_rat (nonZero_rat.1 hd.2.1), ← axis_rat (nonZero_rat.1 hd.2.2)]
  rfl

theorem intersect_eq_some {a : Aabb Rat} {r : Ray Rat} {t : Rat} :
    a.intersect r = some t ↔ a.slabs r = some t ∧ r.tMin < t := by
  unfold Aabb.intersect
  cases h : a.slabs r with
  | none => simp
  | some e =>
    simp only [rat_ge_iff]
    by_cases h' : r.tMin < e
    · rw [if_pos h']
      constructor
      · rintro h; injection h with h; subst h; exact ⟨rfl, h'⟩
      · rintro ⟨h, _⟩; exact h
    · rw [if_neg h']
      constructor
      · intro h; cases h
      · rintro ⟨h, h2⟩; injection h with h; subst h; exact absurd h2 h'

theorem slabs_exact {a : Aabb Rat} (hv : a.Valid) {r : Ray Rat} (hw : r.WellFormed) (hd : r.direction.NonZero)
    {t : Rat} : a.slabs r = some t ↔ a.Has (r.getPointAt t) ∧ ∀ s, a.Has (r.getPointAt s) → s ≤ t := by
  rw [slabs_eq, slabs6_rat]
  simp only [has_getPointAt hw hd]
  have vx : nearP a.min.x a.max.x r.origin.x r.invDirection.x r.signX ≤
      nearP a.min.x a.max.x r.origin.x r.invDirection.x (!r.signX) := by
    rw [hw.1, hw.2.1]
    have := nearP_le (o := r.origin.x) (nonZero_rat.1 hd.1) (vec3_le_rat.1 hv).1
    have e1 : FloatOps.lt r.direction.x (FloatOps.zero : Rat) = decide (r.direction.x < 0) := by rw [rat_zero]; rfl
    have e2 : (recip3 r.direction).x = 1 / r.direction.x := by show FloatOps.one / _ = _; rw [rat_one]
    rw [e1, e2]; exact this
  have vy : nearP a.min.y a.max.y r.origin.y r.invDirection.y r.signY ≤
      nearP a.min.y a.max.y r.origin.y r.invDirection.y (!r.signY) := by
    rw [hw.1, hw.2.2.1]
    have := nearP_le (o := r.origin.y) (nonZero_rat.1 hd.2.1) (vec3_le_rat.1 hv).2.1
    have e1 : FloatOps.lt r.direction.y (FloatOps.zero : Rat) = decide (r.direction.y < 0) := by rw [rat_zero]; rfl
    have e2 : (recip3 r.direction).y = 1 / r.direction.y := by show FloatOps.one / _ = _; rw [rat_one]
    rw [e1, e2]; exact this
  have vz : nearP a.min.z a.max.z r.origin.z r.invDirection.z r.signZ ≤
      nearP a.min.z a.max.z r.origin.z r.invDirection.z (!r.signZ) := by
    rw [hw.1, hw.2.2.2]
    have := nearP_le (o := r.origin.z) (nonZero_rat.1 hd.2.2) (vec3_le_rat.1 hv).2.2
    have e1 : FloatOps.lt r.direction.z (FloatOps.zero : Rat) = decide (r.direction.z < 0) := by rw [rat_zero]; rfl
    have e2 : (recip3 r.direction).z = 1 / r.direction.z := by show FloatOps.one / _ = _; rw [rat_one]
    rw [e1, e2]; exact this
  generalize nearP a.min.x a.max.x r.origin.x r.invDirection.x r.signX = nx at *
  generalize nearP a.min.x a.max.x r.origin.x r.invDirection.x (!r.signX) = fx at *
  generalize nearP a.min.y a.max.y r.origin.y r.invDirection.y r.signY = ny at *
  generalize nearP a.min.y a.max.y r.origin.y r.invDirection.y (!r.signY) = fy at *
  generalize nearP a.min.z a.max.z r.origin.z r.invDirection.z r.signZ = nz at *
  generalize nearP a.min.z a.max.z r.origin.z r.invDirection.z (!r.signZ) = fz at *
  constructor
  · rintro ⟨h1, h2, h3, h4, h5, h6, h7, h8, h9, h⟩
    constructor
    · rcases h with rfl | rfl | rfl <;> refine ⟨⟨?_, ?_⟩, ⟨?_, ?_⟩, ⟨?_, ?_⟩⟩ <;> linarith
    · rintro s ⟨⟨_, a⟩, ⟨_, b⟩, ⟨_, c⟩⟩
      rcases h with rfl | rfl | rfl <;> assumption
  · rintro ⟨⟨⟨h1, h2⟩, ⟨h3, h4⟩, ⟨h5, h6⟩⟩, h⟩
    refine ⟨by linarith, by linarith, by linarith, by linarith, by linarith, by linarith, h2, h4, h6, ?_⟩
    by_contra hc
    rw [not_or, not_or] at hc
    have a1 : t < fx := lt_of_le_of_ne h2 hc.1
    have a2 : t < fy := lt_of_le_of_ne h4 hc.2.1
    have a3 : t < fz := lt_of_le_of_ne h6 hc.2.2
    have hm : t < min fx (min fy fz) := lt_min a1 (lt_min a2 a3)
    have := h (min fx (min fy fz)) ⟨⟨by linarith, min_le_left _ _⟩,
      ⟨by linarith, (min_le_right _ _).trans (min_le_left _ _)⟩,
      ⟨by linarith, (min_le_right _ _).trans (min_le_right _ _)⟩⟩
    linarith

/-- If the ray meets the (valid) box at some parameter, it has a last parameter in the box. -/
theorem slabs_some_of_has {a : Aabb Rat} {r : Ray Rat} (hw : r.WellFormed) (hd : r.direction.NonZero)
    {s : Rat} (hs : a.Has (r.getPointAt s)) : ∃ t, a.slabs r = some t ∧ s ≤ t := by
  rw [slabs_eq]
  simp only [slabs6_rat]
  rw [has_getPointAt hw hd] at hs
  generalize nearP a.min.x a.max.x r.origin.x r.invDirection.x r.signX = nx at *
  generalize nearP a.min.x a.max.x r.origin.x r.invDirection.x (!r.signX) = fx at *
  generalize nearP a.min.y a.max.y r.origin.y r.invDirection.y r.signY = ny at *
  generalize nearP a.min.y a.max.y r.origin.y r.invDirection.y (!r.signY) = fy at *
  generalize nearP a.min.z a.max.z r.origin.z r.invDirection.z r.signZ = nz at *
  generalize nearP a.min.z a.max.z r.origin.z r.invDirection.z (!r.signZ) = fz at *
  obtain ⟨⟨h1, h2⟩, ⟨h3, h4⟩, ⟨h5, h6⟩⟩ := hs
  refine ⟨min fx (min fy fz), ⟨by linarith, by linarith, by linarith, by linarith, by linarith, by linarith,
    min_le_left _ _, (min_le_right _ _).trans (min_le_left _ _), (min_le_right _ _).trans (min_le_right _ _), ?_⟩,
    le_min h2 (le_min h4 h6)⟩
  rcases min_choice fx (min fy fz) with h | h
  · exact .inl h
  · rw [h]
    rcases min_choice fy fz with h | h
    · exact .inr (.inl h)
    · exact .inr (.inr h)

theorem valid_of_has {a : Aabb Rat} {p : Vec3 Rat} (h : a.Has p) : a.Valid := h.1.trans h.2

/-- C35: in exact arithmetic, for a valid box and a ray with non-zero direction components,
`intersect` returns `Some(t)` exactly when `t > t_min` is the parameter at which the ray leaves the closed box (the
last parameter with the ray in the box); it returns `Some` exactly when some parameter above `t_min` lies in the box;
and `intersects` is that test with 0 for `t_min`. -/
theorem C35_slab_exact {a : Aabb Rat} (hv : a.Valid) {r : Ray Rat} (hw : r.WellFormed) (hd : r.direction.NonZero) :
    (∀ t, a.intersect r = some t ↔
      r.tMin < t ∧ a.Has (r.getPointAt t) ∧ ∀ s, a.Has (r.getPointAt s) → s ≤ t) ∧
    ((a.intersect r).isSome = true ↔ ∃ s, r.tMin < s ∧ a.Has (r.getPointAt s)) ∧
    (a.intersects r = true ↔ ∃ s, 0 < s ∧ a.Has (r.getPointAt s)) := by
  have key : ∀ thr : Rat, (∃ e, a.slabs r = some e ∧ (FloatOps.lt thr e) = true) ↔
      ∃ s, thr < s ∧ a.Has (r.getPointAt s) := by
    intro thr
    constructor
    · rintro ⟨e, he, h⟩
      exact ⟨e, rat_lt.1 h, ((slabs_exact hv hw hd).1 he).1⟩
    · rintro ⟨s, h, hs⟩
      obtain ⟨t, ht, hst⟩ := slabs_some_of_has hw hd hs
      exact ⟨t, ht, rat_lt.2 (h.trans_le hst)⟩
  refine ⟨?_, ?_, ?_⟩
  · intro t
    rw [intersect_eq_some, slabs_exact hv hw hd]
    tauto
  · rw [intersect_isSome]; exact key _
  · rw [intersects_iff]
    have := key 0
    unfold passes
    rw [rat_zero]; exact this

theorem noNaN_rat (a : Aabb Rat) (o i : Vec3 Rat) : a.NoNaN o i := ⟨rfl, rfl, rfl, rfl, rfl, rfl⟩
theorem treeNoNaN_rat (T : BTree Rat) (idx : List Nat) (o i : Vec3 Rat) : T.NoNaN idx o i := by
  unfold BTree.NoNaN
  induction T with
  | leaf => exact noNaN_rat _ _ _
  | node b l r ihl ihr => exact ⟨noNaN_rat _ _ _, ihl, ihr⟩

theorem Ray.WellFormed.coherent {r : Ray Rat} (hw : r.WellFormed) (hd : r.direction.NonZero) : r.Coherent := by
  obtain ⟨h1, h2, h3, h4⟩ := hw
  have := Ray.new_coherent (o := r.origin) hd
  unfold Ray.Coherent at this ⊢
  rw [h1, h2, h3, h4]; exact this

/-- Closest-hit folding over a list of yielded primitives. -/
theorem fold_closest {ray : Ray Rat} {hits : Nat → Rat → Prop} {cb : Ray Rat → Nat → Ray Rat × Bool}
    (hcb : ClosestHit ray hits cb) (xs : List Nat) : ∀ t0 : Rat, ∃ t,
      xs.foldl (fun r x => (cb r x).1) { ray with t := t0 } = { ray with t := t } ∧ t ≤ t0 ∧
      (∀ p ∈ xs, ∀ s, hits p s → ray.tMin < s → s < t0 → t ≤ s) ∧
      (t = t0 ∨ ∃ p ∈ xs, hits p t ∧ ray.tMin < t) := by
  induction xs with
  | nil => intro t0; exact ⟨t0, rfl, le_rfl, by simp, .inl rfl⟩
  | cons x xs ih =>
    intro t0
    obtain ⟨t1, e1, l1, b1, a1⟩ := hcb.2 t0 x
    obtain ⟨t2, e2, l2, b2, a2⟩ := ih t1
    refine ⟨t2, ?_, l2.trans l1, ?_, ?_⟩
    · rw [List.foldl_cons, e1]; exact e2
    · intro p hp s hs h1 h2
      rcases List.mem_cons.1 hp with rfl | hp
      · exact l2.trans (b1 s hs h1 h2)
      · by_cases h3 : s < t1
        · exact b2 p hp s hs h1 h3
        · exact l2.trans (not_lt.1 h3)
    · rcases a2 with a2 | ⟨p, hp, h⟩
      · rcases a1 with a1 | ⟨h1, h2⟩
        · exact .inl (a2.trans a1)
        · right; refine ⟨x, by simp, ?_⟩
          rw [show t2 = t1 from a2]; exact ⟨h1, h2⟩
      · exact .inr ⟨p, by simp [hp], h⟩

/-- C31: in exact arithmetic, running a closest-hit test on every primitive yielded by `traverse_iter_indices` leaves
in `ray.t` the brute-force nearest hit over all stored primitives, and changes nothing else in the ray; for every BVH
of depth at most 31 whose bounds contain the primitives' boxes, every ray with non-zero direction components, and every
family of primitives whose hit points lie in their boxes. -/
theorem C31_nearest_hit (b : Bvh Rat) (T : BTree Rat) (h : b.Denotes T) (hdep : T.depth ≤ 31) (boxes : Nat → Aabb Rat)
    (hb : T.Bounds b.indices boxes) (ray : Ray Rat) (hw : ray.WellFormed) (hd : ray.direction.NonZero)
    (hits : Nat → Rat → Prop) (hhits : ∀ p s, hits p s → (boxes p).Has (ray.getPointAt s))
    (cb : Ray Rat → Nat → Ray Rat × Bool) (hcb : ClosestHit ray hits cb) (fuel : Nat) (hf : T.rounds < fuel) :
    ∃ t, (b.forIndices cb fuel ray).ray = { ray with t := t } ∧
      IsNearest hits (T.ids b.indices) ray.tMin ray.t t := by
  have hcb' : ∀ (r : Ray Rat) (id : Nat), ∃ t, cb r id = ({ r with t := t }, false) := by
    intro r id; obtain ⟨t, _, e⟩ := hcb.1 r id; exact ⟨t, e⟩
  have hn : ray.hasNaN = false := rfl
  have href := C20_ray_traversal_refines b T h hdep ray hn cb fuel hf
  have hray : (b.forIndices cb fuel ray).ray =
      (b.forIndices cb fuel ray).items.foldl (fun r x => (cb r x).1) ray := by
    rw [href]; exact visit_ray T ray
  obtain ⟨_, _, hperm⟩ := C20_ray_traversal_exact b T h hdep ray hn cb hcb' fuel hf
  obtain ⟨t, e, l, lo, att⟩ := fold_closest hcb (b.forIndices cb fuel ray).items ray.t
  refine ⟨t, hray.trans e, l, ?_, ?_⟩
  · intro p hp s hs h1 h2
    refine lo p ?_ s hs h1 h2
    have hbox := hhits p s hs
    exact C21_ray_complete b T h hdep boxes hb ray hn (hw.coherent hd) (treeNoNaN_rat _ _ _ _) cb hcb' fuel hf p hp
      (noNaN_rat _ _ _) (((C35_slab_exact (valid_of_has hbox) hw hd).2.1).2 ⟨s, h1, hbox⟩)
  · rcases att with a | ⟨p, hp, h⟩
    · exact .inl a
    · right
      refine ⟨p, ?_, h⟩
      rw [hperm.mem_iff] at hp
      exact List.count_pos_iff.1 (Nat.lt_of_lt_of_le (List.count_pos_iff.2 hp) (reach_count_le_ids _ _ _ _))

/-! C44 -/

/-- An affine function on a box is bounded below by its value at some corner (choice by sign of each coefficient). -/
theorem affine_corner_le (a b c d : Rat) {x0 x1 y0 y1 z0 z1 x y z : Rat} (hx : x0 ≤ x ∧ x ≤ x1)
    (hy : y0 ≤ y ∧ y ≤ y1) (hz : z0 ≤ z ∧ z ≤ z1) :
    ∃ (i j k : Bool), (if i then x1 else x0) * a + (if j then y1 else y0) * b + (if k then z1 else z0) * c + d ≤
      x * a + y * b + z * c + d := by
  have one : ∀ (a u0 u1 u : Rat), u0 ≤ u ∧ u ≤ u1 → ∃ i : Bool, (if i then u1 else u0) * a ≤ u * a := by
    intro a u0 u1 u h
    rcases le_total 0 a with ha | ha
    · exact ⟨false, mul_le_mul_of_nonneg_right h.1 ha⟩
    · exact ⟨true, mul_le_mul_of_nonpos_right h.2 ha⟩
  obtain ⟨i, hi⟩ := one a x0 x1 x hx
  obtain ⟨j, hj⟩ := one b y0 y1 y hy
  obtain ⟨k, hk⟩ := one c z0 z1 z hz
  exact ⟨i, j, k, by linarith⟩

theorem le_affine_corner (a b c d : Rat) {x0 x1 y0 y1 z0 z1 x y z : Rat} (hx : x0 ≤ x ∧ x ≤ x1)
    (hy : y0 ≤ y ∧ y ≤ y1) (hz : z0 ≤ z ∧ z ≤ z1) :
    ∃ (i j k : Bool), x * a + y * b + z * c + d ≤
      (if i then x1 else x0) * a + (if j then y1 else y0) * b + (if k then z1 else z0) * c + d := by
  obtain ⟨i, j, k, h⟩ := affine_corner_le (-a) (-b) (-c) (-d) hx hy hz
  exact ⟨i, j, k, by linarith⟩

/-- In exact arithmetic `all_corners` lists all eight corners. -/
theorem mem_allCorners (a : Aabb Rat) (i j k : Bool) :
    (⟨if i then a.max.x else a.min.x, if j then a.max.y else a.min.y, if k then a.max.z else a.min.z⟩ : Vec3 Rat) ∈
      a.allCorners := by
  have add : ∀ x y : Rat, FloatOps.add x y = x + y := fun _ _ => rfl
  have sub : ∀ x y : Rat, FloatOps.sub x y = x - y := fun _ _ => rfl
  obtain ⟨⟨x0, y0, z0⟩, e1, ⟨x1, y1, z1⟩, e2⟩ := a
  simp only [Aabb.allCorners, Aabb.diagonal, Vec3.sub, Vec3.add, Vec3.map2, add, sub, rat_zero, List.mem_cons]
  cases i <;> cases j <;> cases k <;> simp

/-- Mathematical value of an affine map at a point. -/
def Aabb.Affine.at (m : Aabb.Affine Rat) (p : Vec3 Rat) : Vec3 Rat :=
  ⟨m.c0.x * p.x + m.c1.x * p.y + m.c2.x * p.z + m.c3.x, m.c0.y * p.x + m.c1.y * p.y + m.c2.y * p.z + m.c3.y,
   m.c0.z * p.x + m.c1.z * p.y + m.c2.z * p.z + m.c3.z⟩

theorem affine_apply (m : Aabb.Affine Rat) (p : Vec3 Rat) : m.apply p = m.at p := by
  have add : ∀ x y : Rat, FloatOps.add x y = x + y := fun _ _ => rfl
  have mul : ∀ x y : Rat, FloatOps.mul x y = x * y := fun _ _ => rfl
  simp [Aabb.Affine.apply, Aabb.Affine.at, Vec3.add, Vec3.scale, Vec3.map2, add, mul, rat_one]

/-- C44: in exact arithmetic `transformed(m)` contains the image `m p` of every point `p` of the box, for every affine
map (columns `c0 c1 c2`, translation `c3`). -/
theorem C44_transformed_contains (a : Aabb Rat) (m : Aabb.Affine Rat) (p : Vec3 Rat) (hp : a.Has p) :
    (a.transformed m).Has
      ⟨m.c0.x * p.x + m.c1.x * p.y + m.c2.x * p.z + m.c3.x, m.c0.y * p.x + m.c1.y * p.y + m.c2.y * p.z + m.c3.y,
       m.c0.z * p.x + m.c1.z * p.y + m.c2.z * p.z + m.c3.z⟩ := by
  have hmem : ∀ i j k : Bool, (a.transformed m).Has (m.at
      ⟨if i then a.max.x else a.min.x, if j then a.max.y else a.min.y, if k then a.max.z else a.min.z⟩) := by
    intro i j k
    unfold Aabb.transformed Aabb.fromPoints
    obtain ⟨h1, h2⟩ := foldl_grow (F := Rat) (ps := a.allCorners.map m.apply) (fun _ _ => ⟨rfl, rfl, rfl⟩)
      (a := Aabb.empty) new_numeric
    refine (within_offset_lit h1.num_right (by omega) (by omega) (by omega) (by omega)).has (h2 _ ?_)
    rw [List.mem_map]
    exact ⟨_, mem_allCorners a i j k, affine_apply _ _⟩
  rw [has_rat] at hp
  obtain ⟨hx, hy, hz⟩ := hp
  rw [has_rat]
  have lo := fun A B C D => affine_corner_le A B C D hx hy hz
  have hi := fun A B C D => le_affine_corner A B C D hx hy hz
  refine ⟨⟨?_, ?_⟩, ⟨?_, ?_⟩, ⟨?_, ?_⟩⟩
  · obtain ⟨i, j, k, h⟩ := lo m.c0.x m.c1.x m.c2.x m.c3.x
    have := (has_rat.1 (hmem i j k)).1.1
    simp only [Aabb.Affine.at] at this ⊢; linarith
  · obtain ⟨i, j, k, h⟩ := hi m.c0.x m.c1.x m.c2.x m.c3.x
    have := (has_rat.1 (hmem i j k)).1.2
    simp only [Aabb.Affine.at] at this ⊢; linarith
  · obtain ⟨i, j, k, h⟩ := lo m.c0.y m.c1.y m.c2.y m.c3.y
    have := (has_rat.1 (hmem i j k)).2.1.1
    simp only [Aabb.Affine.at] at this ⊢; linarith
  · obtain ⟨i, j, k, h⟩ := hi m.c0.y m.c1.y m.c2.y m.c3.y
    have := (has_rat.1 (hmem i j k)).2.1.2
    simp only [Aabb.Affine.at] at this ⊢; linarith
  · obtain ⟨i, j, k, h⟩ := lo m.c0.z m.c1.z m.c2.z m.c3.z
    have := (has_rat.1 (hmem i j k)).2.2.1
    simp only [Aabb.Affine.at] at this ⊢; linarith
  · obtain ⟨i, j, k, h⟩ := hi m.c0.z m.c1.z m.c2.z m.c3.z
    have := (has_rat.1 (hmem i j k)).2.2.2
    simp only [Aabb.Affine.at] at this ⊢; linarith

/-! Non-vacuity. -/

/-- A closest-hit callback for primitives that the ray meets at most once. -/
def distCb (dist : Nat → Option Rat) (r : Ray Rat) (p : Nat) : Ray Rat × Bool :=
  match dist p with
  | some d => if r.tMin < d ∧ d < r.t then ({ r with t := d }, false) else (r, false)
  | none => (r, false)

theorem distCb_closest (ray : Ray Rat) (dist : Nat → Option Rat) :
    ClosestHit ray (fun p s => dist p = some s) (distCb dist) := by
  have H : ∀ (r : Ray Rat) p, ∃ t', distCb dist r p = ({ r with t := t' }, false) ∧ t' ≤ r.t ∧
      (∀ s, dist p = some s → r.tMin < s → s < r.t → t' ≤ s) ∧ (t' = r.t ∨ (dist p = some t' ∧ r.tMin < t')) := by
    intro r p
    unfold distCb
    cases h : dist p with
    | none => exact ⟨r.t, rfl, le_rfl, (by intro s hs; cases hs), .inl rfl⟩
    | some d =>
      simp only
      by_cases hc : r.tMin < d ∧ d < r.t
      · rw [if_pos hc]
        exact ⟨d, rfl, hc.2.le, fun s hs _ _ => by injection hs with hs; exact hs.le, .inr ⟨rfl, hc.1⟩⟩
      · rw [if_neg hc]
        refine ⟨r.t, rfl, le_rfl, fun s hs h1 h2 => ?_, .inl rfl⟩
        injection hs with hs; subst hs; exact absurd ⟨h1, h2⟩ hc
  refine ⟨fun r p => ?_, fun t p => H { ray with t := t } p⟩
  obtain ⟨t', e, h, _⟩ := H r p
  exact ⟨t', h, e⟩

def exBox (x : Rat) : Aabb Rat := ofPoints2 ⟨x, 0, 0⟩ ⟨x + 1, 1, 1⟩
def exTree : BTree Rat := .node (ofPoints2 ⟨0, 0, 0⟩ ⟨3, 1, 1⟩) (.leaf (exBox 2) 0 1) (.leaf (exBox 0) 1 1)
def exBvh : Bvh Rat :=
  { nodes := [{ bounds := { (ofPoints2 ⟨0, 0, 0⟩ ⟨3, 1, 1⟩) with extra1 := -1, extra2 := 1 } },
              { bounds := { exBox 2 with extra1 := 1, extra2 := 0 } },
              { bounds := { exBox 0 with extra1 := 1, extra2 := 1 } }]
    primIndices := [0, 1], buildType := .binnedSAH }
def exRay : Ray Rat := Ray.new ⟨-1, 1/4, 1/4⟩ ⟨1, 1/100, 1/100⟩
/-- Primitive 0 is hit at distance 3, primitive 1 at distance 1. -/
def exDist : Nat → Option Rat
  | 0 => some 3
  | 1 => some 1
  | _ => none
def exBoxes : Nat → Aabb Rat
  | 0 => exBox 2
  | _ => exBox 0

instance (a b : Vec3 Rat) : Decidable (a.Le b) := by unfold Vec3.Le; infer_instance
instance (a b : Aabb Rat) : Decidable (a.Within b) := by unfold Aabb.Within; infer_instance
instance (a : Aabb Rat) (p : Vec3 Rat) : Decidable (a.Has p) := by unfold Aabb.Has; infer_instance
instance (r : Ray Rat) : Decidable r.WellFormed := by unfold Ray.WellFormed; infer_instance
instance (v : Vec3 Rat) : Decidable v.NonZero := by unfold Vec3.NonZero NonZero; infer_instance

/-- All hypotheses of C31 are met by a two-leaf BVH; the nearest hit is 1. -/
example : (exBvh.forIndices (distCb exDist) 10 exRay).ray.t = 1 ∧
    ∃ t, (exBvh.forIndices (distCb exDist) 10 exRay).ray = { exRay with t := t } ∧
      IsNearest (fun p s => exDist p = some s) [0, 1] exRay.tMin exRay.t t := by
  refine ⟨by decide +kernel, ?_⟩
  refine C31_nearest_hit exBvh exTree ⟨unfold?_sound (fuel := 3) (by decide +kernel), ?_⟩ (by decide) exBoxes ?_ exRay
    (by decide +kernel) (by decide +kernel) _ ?_ _ (distCb_closest _ exDist) 10 (by decide)
  · unfold exTree exBvh BTree.RangesIn BTree.RangesIn; decide
  · refine ⟨by decide +kernel, ?_, ?_⟩ <;> (unfold BTree.Forall; decide +kernel)
  · intro p s h
    match p, h with
    | 0, h => have : s = 3 := by simp [exDist] at h; exact h.symm
              subst this; decide +kernel
    | 1, h => have : s = 1 := by simp [exDist] at h; exact h.symm
              subst this; decide +kernel

example : (exBox 0).Has ⟨1/2, 1/3, 1/4⟩ ∧ exRay.WellFormed ∧ exRay.direction.NonZero := by decide +kernel

end Rtbvh
