import Verif.Proofs.Box
import Verif.Proofs.F32Laws
import Verif.Proofs.ExactLaws
/-
C33, C34: the box algebra of src/aabb.rs, for every lawful float type (in particular IEEE binary32, `F32`).
-/
namespace Rtbvh
open FloatOps LawfulFloat Aabb
variable {F : Type} [FloatOps F] [LawfulFloat F]

/-- C33: `union_of` is the least upper bound for containment: both boxes lie in it and it lies in every box that has
both; likewise `intersection` is the greatest lower bound. -/
theorem C33_union_least {a b : Aabb F} (ha : a.Numeric) (hb : b.Numeric) :
    a.Within (a.unionOf b) ∧ b.Within (a.unionOf b) ∧
      ∀ c : Aabb F, a.Within c → b.Within c → (a.unionOf b).Within c :=
  ⟨within_unionOf_left ha hb, within_unionOf_right ha hb, fun _ h h' => unionOf_within h h'⟩

/-- C33, dual. -/
theorem C33_intersection_greatest {a b : Aabb F} (ha : a.Numeric) (hb : b.Numeric) :
    (a.intersection b).Within a ∧ (a.intersection b).Within b ∧
      ∀ c : Aabb F, c.Within a → c.Within b → c.Within (a.intersection b) :=
  ⟨⟨Vec3.le_max_left ha.1 hb.1, Vec3.min_le_left ha.2 hb.2⟩,
   ⟨Vec3.le_max_right ha.1 hb.1, Vec3.min_le_right ha.2 hb.2⟩,
   fun _ h h' => ⟨Vec3.max_le h.1 h'.1, Vec3.le_min h.2 h'.2⟩⟩

/-- C33: union is commutative, associative and idempotent (numerically). -/
theorem C33_union_laws {a b c : Aabb F} (ha : a.Numeric) (hb : b.Numeric) (hc : c.Numeric) :
    (a.unionOf b).Same (b.unionOf a) ∧
    ((a.unionOf b).unionOf c).Same (a.unionOf (b.unionOf c)) ∧
    (a.unionOf a).Same a := by
  have ab := unionOf_numeric ha hb
  have bc := unionOf_numeric hb hc
  refine ⟨⟨?_, ?_⟩, ⟨?_, ?_⟩, ?_, ?_⟩
  · exact unionOf_within (within_unionOf_right hb ha) (within_unionOf_left hb ha)
  · exact unionOf_within (within_unionOf_right ha hb) (within_unionOf_left ha hb)
  · exact unionOf_within
      (unionOf_within (within_unionOf_left ha bc) ((within_unionOf_left hb hc).trans (within_unionOf_right ha bc)))
      ((within_unionOf_right hb hc).trans (within_unionOf_right ha bc))
  · exact unionOf_within ((within_unionOf_left ha hb).trans (within_unionOf_left ab hc))
      (unionOf_within ((within_unionOf_right ha hb).trans (within_unionOf_left ab hc)) (within_unionOf_right ab hc))
  · exact unionOf_within (Within.refl ha) (Within.refl ha)
  · exact within_unionOf_left ha ha

omit [LawfulFloat F] in
/-- C33: `grow_bb` is union on the bounds, `shrink` is intersection on the bounds, `grow_bbs` is repeated `grow_bb`;
none of them touches the extra fields. -/
theorem C33_grow_agrees (a b : Aabb F) (bs : List (Aabb F)) :
    (a.growBB b).min = (a.unionOf b).min ∧ (a.growBB b).max = (a.unionOf b).max ∧
    (a.shrink b).min = (a.intersection b).min ∧ (a.shrink b).max = (a.intersection b).max ∧
    a.growBBs bs = bs.foldl growBB a ∧
    (a.growBBs bs).extra1 = a.extra1 ∧ (a.growBBs bs).extra2 = a.extra2 :=
  ⟨rfl, rfl, rfl, rfl, growBBs_eq a bs, rfl, rfl⟩

/-- C33: `grow_bbs` is the least box containing the original and every listed box. -/
theorem C33_grow_bbs_least {a : Aabb F} {bs : List (Aabb F)} (ha : a.Numeric) (hb : ∀ b ∈ bs, b.Numeric) :
    a.Within (a.growBBs bs) ∧ (∀ b ∈ bs, b.Within (a.growBBs bs)) ∧
      ∀ c : Aabb F, a.Within c → (∀ b ∈ bs, b.Within c) → (a.growBBs bs).Within c := by
  rw [growBBs_eq]
  obtain ⟨h1, h2⟩ := foldl_growBB hb ha
  exact ⟨h1, h2, fun c h h' => foldl_growBB_least h' h⟩

/-- C33: `Aabb::empty` is neutral for union and `Aabb::full` for intersection, on every box with coordinates in
±1e34 (numerically); `full` has exactly the points with coordinates in ±1e34. -/
theorem C33_empty_full {a : Aabb F} (h1 : Vec3.Le (Vec3.splat (lit (-1) 34)) a.min) (h2 : Vec3.Le a.min (Vec3.splat (lit 1 34)))
    (h3 : Vec3.Le (Vec3.splat (lit (-1) 34)) a.max) (h4 : Vec3.Le a.max (Vec3.splat (lit 1 34))) :
    (a.unionOf Aabb.empty).Same a ∧ (Aabb.empty.unionOf a).Same a ∧
    (a.intersection Aabb.full).Same a ∧ (Aabb.full.intersection a).Same a ∧ a.Within Aabb.full ∧
    (∀ p : Vec3 F, (Aabb.full : Aabb F).Has p ↔
      Vec3.Le (Vec3.splat (lit (-1) 34)) p ∧ Vec3.Le p (Vec3.splat (lit 1 34))) := by
  have ha : a.Numeric := ⟨Vec3.Le.num_left h2, Vec3.Le.num_left h4⟩
  have hn : (Aabb.empty : Aabb F).Numeric := new_numeric
  have hf : (Aabb.full : Aabb F).Numeric := ⟨Vec3.Le.num_left h1, Vec3.Le.num_right h4⟩
  have he : (Aabb.empty : Aabb F).Within a := ⟨h2, h3⟩
  have hw : a.Within (Aabb.full : Aabb F) := ⟨h1, h4⟩
  refine ⟨⟨unionOf_within (Within.refl ha) he, within_unionOf_left ha hn⟩,
    ⟨unionOf_within he (Within.refl ha), within_unionOf_right hn ha⟩,
    ⟨(C33_intersection_greatest ha hf).1, (C33_intersection_greatest ha hf).2.2 _ (Within.refl ha) hw⟩,
    ⟨(C33_intersection_greatest hf ha).2.1, (C33_intersection_greatest hf ha).2.2 _ hw (Within.refl ha)⟩, hw, fun p => Iff.rfl⟩

omit F [FloatOps F] [LawfulFloat F] in
/-- C33: `Aabb::empty` has no point at all. -/
theorem C33_empty_has_none (p : Vec3 F32) : ¬ (Aabb.empty : Aabb F32).Has p := by
  intro h
  have h1 : ((lit 1 34 : F32) <=. lit (-1) 34) = true := LawfulFloat.le_trans h.1.1 h.2.1
  exact absurd h1 (by decide +kernel)

/-- Non-vacuity of `C33_empty_full`: a proper box, and one whose corners are the limits. -/
example : Vec3.Le (Vec3.splat (lit (-1) 34)) (⟨lit 0 0, lit (-1) 0, lit 2 (-3)⟩ : Vec3 F32) ∧
    Vec3.Le (⟨lit 1 34, lit 3 0, lit 2 7⟩ : Vec3 F32) (Vec3.splat (lit 1 34)) := by
  unfold Vec3.Le
  decide +kernel

/-- C34: growing by a point or padding by a non-negative finite amount never loses a point, and the grown box has the
point. -/
theorem C34_grow_offset {a : Aabb F} {p : Vec3 F} {d : F} (ha : a.Numeric) (hp : p.Numeric) (hd : Fin' d)
    (h0 : ((zero : F) <=. d) = true) :
    (a.grow p).Has p ∧ (∀ q, a.Has q → (a.grow p).Has q) ∧ (∀ q, a.Has q → (a.offsetBy d).Has q) := by
  refine ⟨⟨Vec3.min_le_right ha.1 hp, Vec3.le_max_right ha.2 hp⟩, fun q hq => ?_, fun q hq => ?_⟩
  · exact Within.has (a := a) ⟨Vec3.min_le_left ha.1 hp, Vec3.le_max_left ha.2 hp⟩ hq
  · exact (within_offsetBy ha hd h0).has hq

theorem foldl_grow_empty {ps : List (Vec3 F)} (hp : ∀ p ∈ ps, p.Numeric) :
    (ps.foldl grow (Aabb.empty : Aabb F)).Numeric ∧ ∀ p ∈ ps, (ps.foldl grow (Aabb.empty : Aabb F)).Has p := by
  obtain ⟨h1, h2⟩ := foldl_grow hp (a := Aabb.empty) new_numeric
  exact ⟨h1.num_right, h2⟩

/-- C34: `from_points` and the `aabb!` macro give boxes with every input point. -/
theorem C34_from_points {ps : List (Vec3 F)} (hp : ∀ p ∈ ps, p.Numeric) :
    ∀ p ∈ ps, (Aabb.fromPoints ps).Has p ∧ (Aabb.macroAabb ps).Has p := by
  intro p h
  obtain ⟨h1, h2⟩ := foldl_grow_empty hp
  exact ⟨(within_offset_lit h1 (by omega) (by omega) (by omega) (by omega)).has (h2 p h),
    (within_offset_lit h1 (by omega) (by omega) (by omega) (by omega)).has (h2 p h)⟩

/-- C34: `union_of_list` contains every listed box. -/
theorem C34_union_of_list {bs : List (Aabb F)} (hb : ∀ b ∈ bs, b.Numeric) :
    ∀ b ∈ bs, b.Within (Aabb.unionOfList bs) := by
  intro b h
  obtain ⟨h1, h2⟩ := foldl_growBB hb (a := Aabb.new) new_numeric
  exact (h2 b h).trans (within_offset_lit h1.num_right (by omega) (by omega) (by omega) (by omega))

/-- Two overlapping binary32 boxes, one with an infinite side: the hypotheses of C33/C34 are met. -/
def demoBox1 : Aabb F32 := ofPoints2 ⟨lit 0 0, lit (-1) 0, lit 2 (-3)⟩ ⟨lit 1 0, lit 3 5, F32.inf false⟩
def demoBox2 : Aabb F32 := ofPoints2 ⟨lit (-4) 0, lit 0 0, lit 1 0⟩ ⟨lit 7 0, lit 3 0, lit 9 33⟩

example : demoBox1.Numeric ∧ demoBox2.Numeric ∧ (demoBox1.unionOf demoBox2).Has ⟨lit (-4) 0, lit (-1) 0, F32.inf false⟩ := by
  unfold Aabb.Numeric Aabb.Has Vec3.Numeric Vec3.Le Num
  decide +kernel
example : demoBox1.Numeric ∧ (lit 1 (-4) : F32) ≠ lit 0 0 ∧ Fin' (lit 1 (-4) : F32) := by
  unfold Aabb.Numeric Vec3.Numeric Num Fin'
  decide +kernel

end Rtbvh
