import Verif.Spec.Thru
import Verif.Props.SpatialPacket
import Verif.Props.BuildQuery
import Verif.Props.Watertight
import Verif.Props.TriangleSplit
/- Property C97: build with `construct_spatial_sah`, then query, with rounding. -/
namespace Rtbvh
open FloatOps LawfulFloat Aabb
variable {F : Type} [FloatOps F] [LawfulFloat F]

section axis
variable {o inv T lo hi : F}

theorem axisNum (fo : Fin' o) (fi : Fin' inv) (nz : NonZero inv) {x : F} (hx : Num x) : Num ((x -. o) *. inv) := by
  refine mul_fin (sub_fin hx fo) fi ?_
  rcases nz with h | h
  · exact .inr (lt_iff.1 h).2.2
  · exact .inl (lt_iff.1 h).2.2

theorem ThruAxis.num (h : ThruAxis o inv T lo hi) : Num lo ∧ Num hi ∧ Num T := by
  rcases h with ⟨_, h1, h2⟩ | ⟨_, h1, h2⟩
  · exact ⟨(sub_num (mul_num (le_num h1).1).1).1, (sub_num (mul_num (le_num h2).2).1).1, (le_num h1).2⟩
  · exact ⟨(sub_num (mul_num (le_num h2).2).1).1, (sub_num (mul_num (le_num h1).1).1).1, (le_num h1).2⟩

theorem ThruAxis.mono (fo : Fin' o) (fi : Fin' inv) (nz : NonZero inv) {lo' hi' : F} (h : ThruAxis o inv T lo hi)
    (h1 : (lo' <=. lo) = true) (h2 : (hi <=. hi') = true) : ThruAxis o inv T lo' hi' := by
  have n : ∀ {x : F}, Num x → Num ((x -. o) *. inv) := axisNum fo fi nz
  rcases h with ⟨s, a, b⟩ | ⟨s, a, b⟩
  · exact .inl ⟨s, le_trans (prod_mono s h1 (n (le_num h1).1) (n (le_num h1).2)) a,
      le_trans b (prod_mono s h2 (n (le_num h2).1) (n (le_num h2).2))⟩
  · exact .inr ⟨s, le_trans (prod_anti s h2 (n (le_num h2).1) (n (le_num h2).2)) a,
      le_trans b (prod_anti s h1 (n (le_num h1).1) (n (le_num h1).2))⟩

theorem nonzero_signs (nz : NonZero inv) (h : ((zero : F) <=. inv) = true) (h' : (inv <=. (zero : F)) = true) : False := by
  rcases nz with k | k
  · rw [(lt_iff.1 k).2.2] at h; cases h
  · rw [(lt_iff.1 k).2.2] at h'; cases h'

theorem ThruAxis.inter (nz : NonZero inv) {lo' hi' : F} (h : ThruAxis o inv T lo hi) (h' : ThruAxis o inv T lo' hi') :
    ThruAxis o inv T (FloatOps.max lo lo') (FloatOps.min hi hi') := by
  obtain ⟨n1, n2, _⟩ := h.num
  obtain ⟨m1, m2, _⟩ := h'.num
  have e1 : FloatOps.max lo lo' = lo ∨ FloatOps.max lo lo' = lo' := (max_num n1 m1).imp And.left And.left
  have e2 : FloatOps.min hi hi' = hi ∨ FloatOps.min hi hi' = hi' := (min_num n2 m2).imp And.left And.left
  rcases h with ⟨s, a, b⟩ | ⟨s, a, b⟩ <;> rcases h' with ⟨s', a', b'⟩ | ⟨s', a', b'⟩
  · refine .inl ⟨s, ?_, ?_⟩
    · rcases e1 with e | e <;> rw [e] <;> assumption
    · rcases e2 with e | e <;> rw [e] <;> assumption
  · exact (nonzero_signs nz s s').elim
  · exact (nonzero_signs nz s' s).elim
  · refine .inr ⟨s, ?_, ?_⟩
    · rcases e2 with e | e <;> rw [e] <;> assumption
    · rcases e1 with e | e <;> rw [e] <;> assumption

/-- A plane anywhere leaves `T` in one of the two parts of the slab. -/
theorem ThruAxis.cut (fo : Fin' o) (fi : Fin' inv) (nz : NonZero inv) (h : ThruAxis o inv T lo hi) (pos : F) :
    ThruAxis o inv T lo (if (pos <. hi) = true then pos else hi) ∨ ThruAxis o inv T (if (lo <. pos) = true then pos else lo) hi := by
  obtain ⟨_, _, nT⟩ := h.num
  cases e1 : (pos <. hi) with
  | false => exact .inl (by simpa using h)
  | true =>
    cases e2 : (lo <. pos) with
    | false => exact .inr (by simpa using h)
    | true =>
      simp only [if_true]
      have np := axisNum fo fi nz (lt_num e1).1
      rcases le_total nT np with k | k
      · rcases h with ⟨s, a, b⟩ | ⟨s, a, b⟩
        · exact .inl (.inl ⟨s, a, k⟩)
        · exact .inr (.inr ⟨s, a, k⟩)
      · rcases h with ⟨s, a, b⟩ | ⟨s, a, b⟩
        · exact .inr (.inl ⟨s, k, b⟩)
        · exact .inl (.inr ⟨s, k, b⟩)

end axis

variable {o inv : Vec3 F} {T : F}

theorem thru_filter (hu : Usable o inv) (T : F) : BoxFilter fun a : Aabb F => a.Thru o inv T :=
  ⟨fun {a b} hab h => ⟨h.1.mono hu.1.1 hu.2.1.1 hu.2.2.1 hab.1.1 hab.2.1, h.2.1.mono hu.1.2.1 hu.2.1.2.1 hu.2.2.2.1 hab.1.2.1 hab.2.2.1,
      h.2.2.mono hu.1.2.2 hu.2.1.2.2 hu.2.2.2.2 hab.1.2.2 hab.2.2.2⟩,
    fun {a b} h h' => ⟨h.1.inter hu.2.2.1 h'.1, h.2.1.inter hu.2.2.2.1 h'.2.1, h.2.2.inter hu.2.2.2.2 h'.2.2⟩⟩

theorem thru_splitKeeps (hu : Usable o inv) {box : Aabb F} (h : box.Thru o inv T) :
    SplitKeeps (clipBox box) fun a => a.Thru o inv T := by
  intro a pos
  obtain ⟨x, y, z⟩ := h
  match a with
  | 0 => exact (x.cut hu.1.1 hu.2.1.1 hu.2.2.1 pos).imp (fun k => ⟨k, y, z⟩) (fun k => ⟨k, y, z⟩)
  | 1 => exact (y.cut hu.1.2.1 hu.2.1.2.1 hu.2.2.2.1 pos).imp (fun k => ⟨x, k, z⟩) (fun k => ⟨x, k, z⟩)
  | 2 => exact (z.cut hu.1.2.2 hu.2.1.2.2 hu.2.2.2.2 pos).imp (fun k => ⟨x, y, k⟩) (fun k => ⟨x, y, k⟩)

theorem boxAt_num {l : List (Aabb F)} (hn : ∀ a ∈ l, a.Numeric) (i : Nat) : (boxAt l i).Numeric := by
  unfold boxAt
  rw [List.getD_eq_getElem?_getD]
  cases ei : l[i]? with
  | none => exact new_numeric
  | some a => exact hn a (List.mem_of_getElem? ei)

theorem clipBox_num {box : Aabb F} (h : box.Numeric) (a : Fin 3) (pos : F) :
    (clipBox box a pos).1.Numeric ∧ (clipBox box a pos).2.Numeric := by
  have n1 : ∀ {x : F}, Num x → Num (if (pos <. x) = true then pos else x) := by
    intro x hx; split
    · rename_i k; exact (lt_num k).1
    · exact hx
  have n2 : ∀ {x : F}, Num x → Num (if (x <. pos) = true then pos else x) := by
    intro x hx; split
    · rename_i k; exact (lt_num k).2
    · exact hx
  obtain ⟨⟨a1, a2, a3⟩, b1, b2, b3⟩ := h
  match a with
  | 0 => exact ⟨⟨⟨a1, a2, a3⟩, n1 b1, b2, b3⟩, ⟨n2 a1, a2, a3⟩, b1, b2, b3⟩
  | 1 => exact ⟨⟨⟨a1, a2, a3⟩, b1, n1 b2, b3⟩, ⟨a1, n2 a2, a3⟩, b1, b2, b3⟩
  | 2 => exact ⟨⟨⟨a1, a2, a3⟩, b1, b2, n1 b3⟩, ⟨a1, a2, n2 a3⟩, b1, b2, b3⟩

/-! The tests and the parameter. -/

theorem ThruAxis.near {o inv T lo hi : F} (nz : NonZero inv) (h : ThruAxis o inv T lo hi) {s : Bool}
    (hs : if s then (inv <=. (zero : F)) = true else ((zero : F) <=. inv) = true) :
    (nearP lo hi o inv s <=. T) = true ∧ (T <=. nearP lo hi o inv (!s)) = true := by
  cases s
  · have hs' : ((zero : F) <=. inv) = true := by simpa using hs
    rcases h with ⟨_, a, b⟩ | ⟨k, _⟩
    · exact ⟨a, b⟩
    · exact (nonzero_signs nz hs' k).elim
  · have hs' : (inv <=. (zero : F)) = true := by simpa using hs
    rcases h with ⟨k, _⟩ | ⟨_, a, b⟩
    · exact (nonzero_signs nz k hs').elim
    · exact ⟨a, b⟩

theorem ThruAxis.of_near {o inv T lo hi : F} {s : Bool}
    (hs : if s then (inv <=. (zero : F)) = true else ((zero : F) <=. inv) = true)
    (h : (nearP lo hi o inv s <=. T) = true ∧ (T <=. nearP lo hi o inv (!s)) = true) : ThruAxis o inv T lo hi := by
  cases s
  · exact .inl ⟨by simpa using hs, h⟩
  · exact .inr ⟨by simpa using hs, h⟩

theorem near_le_far {o inv lo hi : F} (fo : Fin' o) (fi : Fin' inv) (nz : NonZero inv) (h : (lo <=. hi) = true) {s : Bool}
    (hs : if s then (inv <=. (zero : F)) = true else ((zero : F) <=. inv) = true) :
    (nearP lo hi o inv s <=. nearP lo hi o inv (!s)) = true := by
  have n : ∀ {x : F}, Num x → Num ((x -. o) *. inv) := axisNum fo fi nz
  cases s
  · exact prod_mono (by simpa using hs) h (n (le_num h).1) (n (le_num h).2)
  · exact prod_anti (by simpa using hs) h (n (le_num h).1) (n (le_num h).2)

theorem Aabb.Thru.numeric {a : Aabb F} {o inv : Vec3 F} {T : F} (h : a.Thru o inv T) : a.Numeric :=
  ⟨⟨h.1.num.1, h.2.1.num.1, h.2.2.num.1⟩, h.1.num.2.1, h.2.1.num.2.1, h.2.2.num.2.1⟩

/-- A box with a parameter above `t_min` in all its slabs passes the single-ray test of the `Bvh`. -/
theorem intersect_of_thru {a : Aabb F} {r : Ray F} (hu : Usable r.origin r.invDirection) (hr : r.Coherent) {T : F}
    (hT : (r.tMin <. T) = true) (h : a.Thru r.origin r.invDirection T) : (a.intersect r).isSome = true := by
  obtain ⟨n1, n2, n3, n4, n5, n6⟩ := noNaN_of_finite h.numeric hu.1 hu.2.1 hu.2.2
  obtain ⟨hx, hy, hz⟩ := h
  rw [intersect_isSome]
  unfold passes
  rw [slabs_eq, slabs6_iff (nearP_num _ n1 n2) (nearP_num _ n1 n2) (nearP_num _ n3 n4) (nearP_num _ n3 n4)
    (nearP_num _ n5 n6) (nearP_num _ n5 n6)]
  obtain ⟨x1, x2⟩ := hx.near hu.2.2.1 hr.1
  obtain ⟨y1, y2⟩ := hy.near hu.2.2.2.1 hr.2.1
  obtain ⟨z1, z2⟩ := hz.near hu.2.2.2.2 hr.2.2
  exact ⟨le_trans x1 y2, le_trans y1 x2, le_trans x1 z2, le_trans y1 z2, le_trans z1 x2, le_trans z1 y2,
    lt_of_lt_of_le' hT x2, lt_of_lt_of_le' hT y2, lt_of_lt_of_le' hT z2⟩

/-- A valid box that passes the single-ray test of the `Bvh` has a parameter above `t_min` in all its slabs. -/
theorem thru_of_intersect {a : Aabb F} {r : Ray F} (hv : a.Valid) (hu : Usable r.origin r.invDirection) (hr : r.Coherent)
    (h : (a.intersect r).isSome = true) : ∃ T, (r.tMin <. T) = true ∧ a.Thru r.origin r.invDirection T := by
  have na := noNaN_of_finite (a := a) ⟨⟨(le_num hv.1).1, (le_num hv.2.1).1, (le_num hv.2.2).1⟩,
    (le_num hv.1).2, (le_num hv.2.1).2, (le_num hv.2.2).2⟩ hu.1 hu.2.1 hu.2.2
  obtain ⟨n1, n2, n3, n4, n5, n6⟩ := na
  have fx := nearP_num (!r.signX) n1 n2
  have fy := nearP_num (!r.signY) n3 n4
  have fz := nearP_num (!r.signZ) n5 n6
  rw [intersect_isSome] at h
  unfold passes at h
  rw [slabs_eq, slabs6_iff (nearP_num _ n1 n2) fx (nearP_num _ n3 n4) fy (nearP_num _ n5 n6) fz] at h
  · obtain ⟨g1, g2, g3, g4, g5, g6, g7, g8, g9⟩ := h
    have lx := near_le_far hu.1.1 hu.2.1.1 hu.2.2.1 hv.1 hr.1
    have ly := near_le_far hu.1.2.1 hu.2.1.2.1 hu.2.2.2.1 hv.2.1 hr.2.1
    have lz := near_le_far hu.1.2.2 hu.2.1.2.2 hu.2.2.2.2 hv.2.2 hr.2.2
    have fyz := vmin_isNum fy fz
    have one : ∀ {x : F}, (x <=. nearP a.min.x a.max.x r.origin.x r.invDirection.x (!r.signX)) = true →
        (x <=. nearP a.min.y a.max.y r.origin.y r.invDirection.y (!r.signY)) = true →
        (x <=. nearP a.min.z a.max.z r.origin.z r.invDirection.z (!r.signZ)) = true →
        (x <=. vmin (nearP a.min.x a.max.x r.origin.x r.invDirection.x (!r.signX))
          (vmin (nearP a.min.y a.max.y r.origin.y r.invDirection.y (!r.signY))
            (nearP a.min.z a.max.z r.origin.z r.invDirection.z (!r.signZ)))) = true :=
      fun h1 h2 h3 => le_vmin h1 (le_vmin h2 h3)
    refine ⟨vmin (nearP a.min.x a.max.x r.origin.x r.invDirection.x (!r.signX))
          (vmin (nearP a.min.y a.max.y r.origin.y r.invDirection.y (!r.signY))
            (nearP a.min.z a.max.z r.origin.z r.invDirection.z (!r.signZ))), ?_,
      .of_near hr.1 ⟨one lx g1 g3, vmin_le_left fx fyz⟩,
      .of_near hr.2.1 ⟨one g2 ly g4, le_trans (vmin_le_right fx fyz) (vmin_le_left fy fz)⟩,
      .of_near hr.2.2 ⟨one g5 g6 lz, le_trans (vmin_le_right fx fyz) (vmin_le_right fy fz)⟩⟩
    have pick : ∀ {x y : F}, (r.tMin <. x) = true → (r.tMin <. y) = true → (r.tMin <. vmin x y) = true := by
      intro x y hx hy; rw [vmin_eq]; split <;> assumption
    exact pick g7 (pick g8 g9)

theorem ThruAxis.mm {o inv T lo hi : F} (fo : Fin' o) (fi : Fin' inv) (nz : NonZero inv) (h : ThruAxis o inv T lo hi) :
    (vmin ((lo -. o) *. inv) ((hi -. o) *. inv) <=. T) = true ∧ (T <=. vmax ((lo -. o) *. inv) ((hi -. o) *. inv)) = true := by
  obtain ⟨n1, n2, _⟩ := h.num
  have m1 := axisNum fo fi nz n1
  have m2 := axisNum fo fi nz n2
  rcases h with ⟨_, a, b⟩ | ⟨_, a, b⟩
  · exact ⟨le_trans (vmin_le_left m1 m2) a, le_trans b (le_vmax_right m1 m2)⟩
  · exact ⟨le_trans (vmin_le_right m1 m2) a, le_trans b (le_vmax_left m1 m2)⟩

theorem ThruAxis.of_mm {o inv T lo hi : F} (fo : Fin' o) (fi : Fin' inv) (nz : NonZero inv) (hv : (lo <=. hi) = true)
    (h1 : (vmin ((lo -. o) *. inv) ((hi -. o) *. inv) <=. T) = true)
    (h2 : (T <=. vmax ((lo -. o) *. inv) ((hi -. o) *. inv)) = true) : ThruAxis o inv T lo hi := by
  have m1 := axisNum fo fi nz (le_num hv).1
  have m2 := axisNum fo fi nz (le_num hv).2
  rcases nz with k | k
  · have s := lt_le k
    have e := prod_anti s hv m1 m2
    exact .inr ⟨s, le_trans (le_vmin e (le_refl m2)) h1, le_trans h2 (vmax_le (le_refl m1) e)⟩
  · have s := lt_le k
    have e := prod_mono s hv m1 m2
    exact .inl ⟨s, le_trans (le_vmin (le_refl m1) e) h1, le_trans h2 (vmax_le e (le_refl m2))⟩

/-- A box with a parameter below `t` in all its slabs passes the quad-node test. -/
theorem quadTest_of_thru {a : Aabb F} {r : Ray F} (hu : Usable r.origin r.invDirection) {T : F}
    (hT : (T <. r.t) = true) (h : a.Thru r.origin r.invDirection T) : quadTest a r = true := by
  obtain ⟨hx, hy, hz⟩ := h
  obtain ⟨x1, x2⟩ := hx.mm hu.1.1 hu.2.1.1 hu.2.2.1
  obtain ⟨y1, y2⟩ := hy.mm hu.1.2.1 hu.2.1.2.1 hu.2.2.2.1
  obtain ⟨z1, z2⟩ := hz.mm hu.1.2.2 hu.2.1.2.2 hu.2.2.2.2
  have h1 : ((quadLane a r).1 <=. T) = true := vmax_le x1 (vmax_le y1 z1)
  have h2 : (T <=. (quadLane a r).2) = true := le_vmin x2 (le_vmin y2 z2)
  unfold quadTest ge
  simp only [le_trans h1 h2, lt_of_le_of_lt' h1 hT, Bool.and_self]

/-- A valid box that passes the quad-node test has a parameter below `t` in all its slabs. -/
theorem thru_of_quadTest {a : Aabb F} {r : Ray F} (hv : a.Valid) (hu : Usable r.origin r.invDirection)
    (h : quadTest a r = true) : ∃ T, (T <. r.t) = true ∧ a.Thru r.origin r.invDirection T := by
  unfold quadTest ge at h
  rw [Bool.and_eq_true] at h
  obtain ⟨h1, h2⟩ := h
  obtain ⟨n1, n2, n3, n4, n5, n6⟩ := noNaN_of_finite (a := a) ⟨⟨(le_num hv.1).1, (le_num hv.2.1).1, (le_num hv.2.2).1⟩,
    (le_num hv.1).2, (le_num hv.2.1).2, (le_num hv.2.2).2⟩ hu.1 hu.2.1 hu.2.2
  have i1 := vmin_isNum n1 n2
  have i2 := vmin_isNum n3 n4
  have i3 := vmin_isNum n5 n6
  have j1 := vmax_isNum n1 n2
  have j2 := vmax_isNum n3 n4
  have j3 := vmax_isNum n5 n6
  have i23 := vmax_isNum i2 i3
  have j23 := vmin_isNum j2 j3
  refine ⟨(quadLane a r).1, h2, ?_, ?_, ?_⟩
  · exact .of_mm hu.1.1 hu.2.1.1 hu.2.2.1 hv.1 (le_vmax_left i1 i23) (le_trans h1 (vmin_le_left j1 j23))
  · exact .of_mm hu.1.2.1 hu.2.1.2.1 hu.2.2.2.1 hv.2.1 (le_trans (le_vmax_left i2 i3) (le_vmax_right i1 i23))
      (le_trans h1 (le_trans (vmin_le_right j1 j23) (vmin_le_left j2 j3)))
  · exact .of_mm hu.1.2.2 hu.2.1.2.2 hu.2.2.2.2 hv.2.2 (le_trans (le_vmax_right i2 i3) (le_vmax_right i1 i23))
      (le_trans h1 (le_trans (vmin_le_right j1 j23) (vmin_le_right j2 j3)))

/-! Packets test strictly, so a lane needs two parameters with nothing between them. -/

/-- `T₁ < T₂` and no number lies between. -/
def Adjacent (T₁ T₂ : F) : Prop := (T₁ <. T₂) = true ∧ ∀ x : F, Num x → (x <=. T₁) = true ∨ (T₂ <=. x) = true

theorem ThruAxis.cut2 {o inv lo hi T₁ T₂ : F} (fo : Fin' o) (fi : Fin' inv) (nz : NonZero inv) (ha : Adjacent T₁ T₂)
    (h : ThruAxis o inv T₁ lo hi) (h' : ThruAxis o inv T₂ lo hi) (pos : F) :
    (ThruAxis o inv T₁ lo (if (pos <. hi) = true then pos else hi) ∧ ThruAxis o inv T₂ lo (if (pos <. hi) = true then pos else hi)) ∨
    (ThruAxis o inv T₁ (if (lo <. pos) = true then pos else lo) hi ∧ ThruAxis o inv T₂ (if (lo <. pos) = true then pos else lo) hi) := by
  cases e1 : (pos <. hi) with
  | false => exact .inl (by simpa using ⟨h, h'⟩)
  | true =>
    cases e2 : (lo <. pos) with
    | false => exact .inr (by simpa using ⟨h, h'⟩)
    | true =>
      simp only [if_true]
      have np := axisNum fo fi nz (lt_num e1).1
      have l := lt_le ha.1
      rcases ha.2 _ np with k | k
      · rcases h with ⟨s, a, b⟩ | ⟨s, a, b⟩ <;> rcases h' with ⟨s', a', b'⟩ | ⟨s', a', b'⟩
        · exact .inr ⟨.inl ⟨s, k, b⟩, .inl ⟨s, le_trans k l, b'⟩⟩
        · exact (nonzero_signs nz s s').elim
        · exact (nonzero_signs nz s' s).elim
        · exact .inl ⟨.inr ⟨s, k, b⟩, .inr ⟨s, le_trans k l, b'⟩⟩
      · rcases h with ⟨s, a, b⟩ | ⟨s, a, b⟩ <;> rcases h' with ⟨s', a', b'⟩ | ⟨s', a', b'⟩
        · exact .inl ⟨.inl ⟨s, a, le_trans l k⟩, .inl ⟨s, a', k⟩⟩
        · exact (nonzero_signs nz s s').elim
        · exact (nonzero_signs nz s' s).elim
        · exact .inr ⟨.inr ⟨s, a, le_trans l k⟩, .inr ⟨s, a', k⟩⟩

theorem thru_filter2 (hu : Usable o inv) (T₁ T₂ : F) : BoxFilter fun a : Aabb F => a.Thru o inv T₁ ∧ a.Thru o inv T₂ :=
  ⟨fun hab h => ⟨(thru_filter hu T₁).mono hab h.1, (thru_filter hu T₂).mono hab h.2⟩,
    fun h h' => ⟨(thru_filter hu T₁).inter h.1 h'.1, (thru_filter hu T₂).inter h.2 h'.2⟩⟩

theorem thru_splitKeeps2 (hu : Usable o inv) {T₁ T₂ : F} (ha : Adjacent T₁ T₂) {box : Aabb F}
    (h : box.Thru o inv T₁ ∧ box.Thru o inv T₂) :
    SplitKeeps (clipBox box) fun a => a.Thru o inv T₁ ∧ a.Thru o inv T₂ := by
  intro a pos
  obtain ⟨⟨x, y, z⟩, x', y', z'⟩ := h
  match a with
  | 0 => exact (x.cut2 hu.1.1 hu.2.1.1 hu.2.2.1 ha x' pos).imp (fun k => ⟨⟨k.1, y, z⟩, k.2, y', z'⟩) (fun k => ⟨⟨k.1, y, z⟩, k.2, y', z'⟩)
  | 1 => exact (y.cut2 hu.1.2.1 hu.2.1.2.1 hu.2.2.2.1 ha y' pos).imp (fun k => ⟨⟨x, k.1, z⟩, x', k.2, z'⟩) (fun k => ⟨⟨x, k.1, z⟩, x', k.2, z'⟩)
  | 2 => exact (z.cut2 hu.1.2.2 hu.2.1.2.2 hu.2.2.2.2 ha z' pos).imp (fun k => ⟨⟨x, y, k.1⟩, x', y', k.2⟩) (fun k => ⟨⟨x, y, k.1⟩, x', y', k.2⟩)

/-- Every parameter between the ends of a lane's interval lies in all slabs (the test of `Aabb::intersect4`). -/
theorem thru_of_lane4 {a : Aabb F} {pk : RayPacket4 F} {i : Fin 4} (hv : a.Valid) (hu : Usable (pk.originOf i) (pk.invOf i))
    (T : F) (h1 : ((a.lane4 pk i).1 <=. T) = true) (h2 : (T <=. (a.lane4 pk i).2) = true) :
    a.Thru (pk.originOf i) (pk.invOf i) T := by
  obtain ⟨n1, n2, n3, n4, n5, n6⟩ := noNaN_of_finite (a := a) ⟨⟨(le_num hv.1).1, (le_num hv.2.1).1, (le_num hv.2.2).1⟩,
    (le_num hv.1).2, (le_num hv.2.1).2, (le_num hv.2.2).2⟩ hu.1 hu.2.1 hu.2.2
  have i1 := vmin_isNum n1 n2
  have i2 := vmin_isNum n3 n4
  have i3 := vmin_isNum n5 n6
  have j1 := vmax_isNum n1 n2
  have j2 := vmax_isNum n3 n4
  have j3 := vmax_isNum n5 n6
  have i23 := vmax_isNum i2 i3
  have j23 := vmin_isNum j2 j3
  exact ⟨.of_mm hu.1.1 hu.2.1.1 hu.2.2.1 hv.1 (le_trans (le_vmax_left i1 i23) h1) (le_trans h2 (vmin_le_left j1 j23)),
    .of_mm hu.1.2.1 hu.2.1.2.1 hu.2.2.2.1 hv.2.1 (le_trans (le_trans (le_vmax_left i2 i3) (le_vmax_right i1 i23)) h1)
      (le_trans h2 (le_trans (vmin_le_right j1 j23) (vmin_le_left j2 j3))),
    .of_mm hu.1.2.2 hu.2.1.2.2 hu.2.2.2.2 hv.2.2 (le_trans (le_trans (le_vmax_right i2 i3) (le_vmax_right i1 i23)) h1)
      (le_trans h2 (le_trans (vmin_le_right j1 j23) (vmin_le_right j2 j3)))⟩

/-- The same for the quad nodes' test. -/
theorem thru_of_quadLane4 {a : Aabb F} {pk : RayPacket4 F} {i : Fin 4} (hv : a.Valid) (hu : Usable (pk.originOf i) (pk.invOf i))
    (T : F) (h1 : ((quadLane4 a pk i).1 <=. T) = true) (h2 : (T <=. (quadLane4 a pk i).2) = true) :
    a.Thru (pk.originOf i) (pk.invOf i) T := by
  obtain ⟨n1, n2, n3, n4, n5, n6⟩ := noNaN_of_finite (a := a) ⟨⟨(le_num hv.1).1, (le_num hv.2.1).1, (le_num hv.2.2).1⟩,
    (le_num hv.1).2, (le_num hv.2.1).2, (le_num hv.2.2).2⟩ hu.1 hu.2.1 hu.2.2
  have i1 := vmin_isNum n1 n2
  have i2 := vmin_isNum n3 n4
  have i3 := vmin_isNum n5 n6
  have j1 := vmax_isNum n1 n2
  have j2 := vmax_isNum n3 n4
  have j3 := vmax_isNum n5 n6
  have i12 := vmax_isNum i1 i2
  have j12 := vmin_isNum j1 j2
  exact ⟨.of_mm hu.1.1 hu.2.1.1 hu.2.2.1 hv.1 (le_trans (le_trans (le_vmax_left i1 i2) (le_vmax_left i12 i3)) h1)
      (le_trans h2 (le_trans (vmin_le_left j12 j3) (vmin_le_left j1 j2))),
    .of_mm hu.1.2.1 hu.2.1.2.1 hu.2.2.2.1 hv.2.1 (le_trans (le_trans (le_vmax_right i1 i2) (le_vmax_left i12 i3)) h1)
      (le_trans h2 (le_trans (vmin_le_left j12 j3) (vmin_le_right j1 j2))),
    .of_mm hu.1.2.2 hu.2.1.2.2 hu.2.2.2.2 hv.2.2 (le_trans (le_vmax_right i12 i3) h1)
      (le_trans h2 (vmin_le_right j12 j3))⟩

/-- Two parameters `T₁ < T₂` in all slabs, `T₂` above 0 and `T₁` below the lane's `t`: the lane passes. -/
theorem mask4_of_thru {a : Aabb F} {pk : RayPacket4 F} {i : Fin 4} (hu : Usable (pk.originOf i) (pk.invOf i)) {T₁ T₂ : F}
    (hlt : (T₁ <. T₂) = true) (h0 : ((zero : F) <. T₂) = true) (ht : (T₁ <. pk.t.get i) = true)
    (h : a.Thru (pk.originOf i) (pk.invOf i) T₁ ∧ a.Thru (pk.originOf i) (pk.invOf i) T₂) : a.mask4 pk i = true := by
  obtain ⟨⟨x, y, z⟩, x', y', z'⟩ := h
  have h1 : ((a.lane4 pk i).1 <=. T₁) = true := vmax_le (x.mm hu.1.1 hu.2.1.1 hu.2.2.1).1
    (vmax_le (y.mm hu.1.2.1 hu.2.1.2.1 hu.2.2.2.1).1 (z.mm hu.1.2.2 hu.2.1.2.2 hu.2.2.2.2).1)
  have h2 : (T₂ <=. (a.lane4 pk i).2) = true := le_vmin (x'.mm hu.1.1 hu.2.1.1 hu.2.2.1).2
    (le_vmin (y'.mm hu.1.2.1 hu.2.1.2.1 hu.2.2.2.1).2 (z'.mm hu.1.2.2 hu.2.1.2.2 hu.2.2.2.2).2)
  unfold Aabb.mask4 gt
  simp only [lt_of_lt_of_le' h0 h2, lt_of_lt_of_le' (lt_of_le_of_lt' h1 hlt) h2, lt_of_le_of_lt' h1 ht, Bool.and_self]

theorem quadTest4_of_thru {a : Aabb F} {pk : RayPacket4 F} {i : Fin 4} (hu : Usable (pk.originOf i) (pk.invOf i)) {T₁ T₂ : F}
    (hlt : (T₁ <. T₂) = true) (ht : (T₁ <. pk.t.get i) = true)
    (h : a.Thru (pk.originOf i) (pk.invOf i) T₁ ∧ a.Thru (pk.originOf i) (pk.invOf i) T₂) : quadTest4 a pk i = true := by
  obtain ⟨⟨x, y, z⟩, x', y', z'⟩ := h
  have h1 : ((quadLane4 a pk i).1 <=. T₁) = true := vmax_le (vmax_le (x.mm hu.1.1 hu.2.1.1 hu.2.2.1).1
    (y.mm hu.1.2.1 hu.2.1.2.1 hu.2.2.2.1).1) (z.mm hu.1.2.2 hu.2.1.2.2 hu.2.2.2.2).1
  have h2 : (T₂ <=. (quadLane4 a pk i).2) = true := le_vmin (le_vmin (x'.mm hu.1.1 hu.2.1.1 hu.2.2.1).2
    (y'.mm hu.1.2.1 hu.2.1.2.1 hu.2.2.2.1).2) (z'.mm hu.1.2.2 hu.2.1.2.2 hu.2.2.2.2).2
  unfold quadTest4 gt
  simp only [lt_of_lt_of_le' (lt_of_le_of_lt' h1 hlt) h2, lt_of_le_of_lt' h1 ht, Bool.and_self]

/-- In binary32 every number below another one has a next one. -/
theorem F32.next {x y : F32} (h : (x <. y) = true) : ∃ z : F32, Adjacent x z ∧ (z <=. y) = true := by
  have ex : ∃ k : Nat, ∃ z : F32, x.lt z = true ∧ z.ord = x.ord + k := by
    obtain ⟨h1, h2, h3⟩ := F32.lt_iff'.1 h
    exact ⟨(y.ord - x.ord).toNat, y, h, by omega⟩
  classical
  obtain ⟨z, hz, ez⟩ := Nat.find_spec ex
  have hmin : ∀ w : F32, x.lt w = true → z.ord ≤ w.ord := by
    intro w hw
    by_contra hc
    obtain ⟨_, _, h3⟩ := F32.lt_iff'.1 hw
    have hlt : (w.ord - x.ord).toNat < Nat.find ex := by omega
    exact Nat.find_min ex hlt ⟨w, hw, by omega⟩
  have nz : Num z := (F32.lt_iff'.1 hz).2.1
  have nx : Num x := (F32.lt_iff'.1 hz).1
  have up : ∀ w : F32, (x <. w) = true → (z <=. w) = true := by
    intro w hw
    have nw : Num w := (F32.lt_iff'.1 hw).2.1
    have := hmin w hw
    cases e : (w <. z) with
    | true => have := (F32.lt_iff'.1 e).2.2; omega
    | false => exact not_lt_le nw nz e
  refine ⟨z, ⟨hz, fun w hw => ?_⟩, up y h⟩
  cases e : (x <. w) with
  | true => exact .inr (up w e)
  | false => exact .inl (not_lt_le nx hw e)

/-- C97, the part that holds, with rounding (any lawful float, binary32 included).  Build with `construct_spatial_sah`
(scene and `split` without NaN); then every primitive that the moves after cuts spare (`SparesSpatial`; all primitives if no
move does harm), from which clipping takes nothing (`KeptWhole`: the `split` cuts its box, or it is listed only once) and
whose own (valid) box the ray hits is yielded: by the BVH (at
most 31 deep) for a caller that only changes `t` and never breaks, and by the `Mbvh` made from it for a caller that only
lowers `t`, if the final ray hits the box.
Missing: primitives overwritten by a move and `split`s that lose points (`C92_missed_hit`); hits of the primitive that its own
tight box misses by rounding (`C97_hit_lost`; C97_margin_partial for boxes with a margin). -/
theorem C97_spatial_query_partial {b : Builder F}
    {split : Nat → Fin 3 → F → Aabb F × Aabb F} {sort : Fin 3 → List (Ref F) → Option (List (Ref F))}
    {order ks : List Nat} (h : b.LegalSpatial order sort) (hn : ∀ a ∈ b.boxes order, a.Numeric)
    (hsp : ∀ i a x, (split i a x).1.Numeric ∧ (split i a x).2.Numeric) {bvh : Bvh F}
    (e : b.constructSpatialSah split sort order ks = .ok (.ok (some bvh)))
    {T : BTree F} (hU : Unfolds bvh.nodes 0 T) :
    (T.depth ≤ 31 → ∀ fuel ≥ 3 * referenceLimit F b.primitives.length + 2, ∀ (ray : Ray F) (cb : Ray F → Nat → Ray F × Bool),
      ray.hasNaN = false → ray.Coherent → Usable ray.origin ray.invDirection →
      (∀ r id, ∃ t, cb r id = ({ r with t := t }, false)) →
      (bvh.forIndices cb fuel ray).ending = .finished ∧
      ∀ p < b.primitives.length, b.SparesSpatial split sort order (T.withIds bvh.indices) p →
        b.KeptWhole split order (T.ids bvh.indices) p →
        (boxAt (b.boxes order) p).Valid →
        ((boxAt (b.boxes order) p).intersect ray).isSome = true → p ∈ (bvh.forIndices cb fuel ray).items) ∧
    (T.depth ≤ 22 ∨ T.leaves ≤ 65 → ∀ k > T.depth, ∃ q : Mbvh F, Mbvh.construct k bvh = some q ∧ ∃ N, ∀ fuel ≥ N,
      ∀ (ray : Ray F) (cb : Ray F → Nat → Ray F × Bool), Usable ray.origin ray.invDirection →
      (∀ r id, r.Lowered (cb r id).1 ∧ (cb r id).2 = false) →
      (q.forIndices cb fuel ray).ending = .finished ∧
      ∀ p < b.primitives.length, b.SparesSpatial split sort order (T.withIds bvh.indices) p →
        b.KeptWhole split order (T.ids bvh.indices) p →
        (boxAt (b.boxes order) p).Valid →
        quadTest (boxAt (b.boxes order) p) (q.forIndices cb fuel ray).ray = true → p ∈ (q.forIndices cb fuel ray).items) := by
  obtain ⟨T', hc, hr⟩ := C26_spatial_compact h e
  have := hU.det hc.unfolds; subst this
  have reach : ∀ {o inv : Vec3 F} (_ : Usable o inv) (s : F), ∀ p < b.primitives.length,
      b.SparesSpatial split sort order (T.withIds bvh.indices) p →
      b.KeptWhole split order (T.ids bvh.indices) p →
      (boxAt (b.boxes order) p).Thru o inv s → T.Reaches bvh.indices p fun a => a.Thru o inv s :=
    fun hu s p hp hq hk ht => spared_covers h hn hsp (thru_filter hu s) p hp hq ht
      (hk.imp (fun e => by rw [e]; exact thru_splitKeeps hu ht) id)
  refine ⟨fun hdep fuel hf ray cb hnan hco hu hcb => ?_, fun hdep k hk => ?_⟩
  · obtain ⟨hfin, _, hperm⟩ := C20_ray_traversal_exact bvh T hc.toDenotes hdep ray hnan cb hcb fuel (by omega)
    refine ⟨hfin, fun p hp hq hk hv hhit => ?_⟩
    obtain ⟨s, hs, ht⟩ := thru_of_intersect hv hu hco hhit
    rw [hperm.mem_iff]
    exact (reach hu s p hp hq hk ht).mem fun a ha => intersect_of_thru hu hco hs ha
  · obtain ⟨q, e1, e2, _, h2, _⟩ := construct_main bvh T hc k hk
    have need : T.toQuad.stackNeed ≤ 32 := by
      rcases hdep with hdep | hdep
      · refine C29_quad_depth _ ?_
        by_cases h1 : 1 ≤ T.depth
        · have := toQuad_depth' T h1; omega
        · have := toQuad_depth T; omega
      · have := toQuad_need T; omega
    refine ⟨q, e1, T.toQuad.rounds, fun fuel hf ray cb hu hcb => ?_⟩
    have hrun := (C28_traversal_refines q T.toQuad e2 need fuel hf).1 cb ray
    obtain ⟨hfin, hlow, _, _⟩ := C28_ray_offered q T.toQuad e2 need ray cb hcb fuel hf
    refine ⟨hfin, fun p hp hq hk hv hhit => ?_⟩
    have hu' : Usable (q.forIndices cb fuel ray).ray.origin (q.forIndices cb fuel ray).ray.invDirection := by
      obtain ⟨⟨t, ht⟩, _⟩ := hlow
      rw [ht]; exact hu
    obtain ⟨s, hs, ht⟩ := thru_of_quadTest hv hu' hhit
    have hge := T.toQuad.visit_count_ge_final (idx := q.primIndices) Ray.Lowered.refl Ray.Lowered.trans
      (fun r x => (hcb r x).1) (pass := fun a => quadTest a (q.forIndices cb fuel ray).ray)
      (fin := (q.forIndices cb fuel ray).ray) (hit := quadHit) quadHit_perm
      (by
        intro bs r s hr hpass
        show (bs.map fun b => quadTest b r).get s = true
        rw [Vec4.get_map]
        exact quadTest_lowered hr hpass) p ray (by rw [← hrun]; exact hfin)
      (by rw [← hrun]; exact Ray.Lowered.refl _)
    rw [T.toQuad.root_reach e2.unfolds.root_isQuad, ← hrun] at hge
    refine List.count_pos_iff.1 (Nat.lt_of_lt_of_le (List.count_pos_iff.2 ?_) hge)
    rw [h2]
    exact (reach hu' s p hp hq hk ht).toQuad.mem fun a ha => quadTest_of_thru hu' hs ha

/-- C97 for packets, in binary32 (rounding included): under the same conditions every primitive whose own (valid) box some
lane of the final packet hits is yielded, by the BVH if that lane's final `t` is positive and by the `Mbvh`, for a caller
that only lowers `t` and never breaks. -/
theorem C97_packets_partial {b : Builder F32}
    {split : Nat → Fin 3 → F32 → Aabb F32 × Aabb F32} {sort : Fin 3 → List (Ref F32) → Option (List (Ref F32))}
    {order ks : List Nat} (h : b.LegalSpatial order sort) (hn : ∀ a ∈ b.boxes order, a.Numeric)
    (hsp : ∀ i a x, (split i a x).1.Numeric ∧ (split i a x).2.Numeric) {bvh : Bvh F32}
    (e : b.constructSpatialSah split sort order ks = .ok (.ok (some bvh)))
    {T : BTree F32} (hU : Unfolds bvh.nodes 0 T) :
    (T.depth ≤ 31 → ∀ fuel ≥ 3 * referenceLimit F32 b.primitives.length + 2,
      ∀ (pk : RayPacket4 F32) (cb : RayPacket4 F32 → Nat → RayPacket4 F32 × Bool), pk.hasNaN = false →
      (∀ r id, r.Lowered (cb r id).1 ∧ (cb r id).2 = false) →
      (bvh.forIndicesPacket cb fuel pk).ending = .finished ∧
      ∀ i, Usable (pk.originOf i) (pk.invOf i) → ((zero : F32) <. (bvh.forIndicesPacket cb fuel pk).ray.t.get i) = true →
      ∀ p < b.primitives.length, b.SparesSpatial split sort order (T.withIds bvh.indices) p →
        b.KeptWhole split order (T.ids bvh.indices) p →
        (boxAt (b.boxes order) p).Valid →
        (boxAt (b.boxes order) p).mask4 (bvh.forIndicesPacket cb fuel pk).ray i = true →
        p ∈ (bvh.forIndicesPacket cb fuel pk).items) ∧
    (T.depth ≤ 22 ∨ T.leaves ≤ 65 → ∀ k > T.depth, ∃ q : Mbvh F32, Mbvh.construct k bvh = some q ∧ ∃ N, ∀ fuel ≥ N,
      ∀ (pk : RayPacket4 F32) (cb : RayPacket4 F32 → Nat → RayPacket4 F32 × Bool),
      (∀ r id, r.Lowered (cb r id).1 ∧ (cb r id).2 = false) →
      (q.forIndicesPacket cb fuel pk).ending = .finished ∧
      ∀ i, Usable (pk.originOf i) (pk.invOf i) → ∀ p < b.primitives.length, b.SparesSpatial split sort order (T.withIds bvh.indices) p →
        b.KeptWhole split order (T.ids bvh.indices) p →
        (boxAt (b.boxes order) p).Valid →
        quadTest4 (boxAt (b.boxes order) p) (q.forIndicesPacket cb fuel pk).ray i = true →
        p ∈ (q.forIndicesPacket cb fuel pk).items) := by
  obtain ⟨T', hc, hr⟩ := C26_spatial_compact h e
  have := hU.det hc.unfolds; subst this
  have reach : ∀ {o inv : Vec3 F32} (_ : Usable o inv) {s s' : F32}, Adjacent s s' → ∀ p < b.primitives.length,
      b.SparesSpatial split sort order (T.withIds bvh.indices) p →
      b.KeptWhole split order (T.ids bvh.indices) p →
      (boxAt (b.boxes order) p).Thru o inv s ∧ (boxAt (b.boxes order) p).Thru o inv s' →
      T.Reaches bvh.indices p fun a => a.Thru o inv s ∧ a.Thru o inv s' :=
    fun hu s s' had p hp hq hk ht => spared_covers h hn hsp (thru_filter2 hu s s') p hp hq ht
      (hk.imp (fun e => by rw [e]; exact thru_splitKeeps2 hu had ht) id)
  refine ⟨fun hdep fuel hf pk cb hnan hcb => ?_, fun hdep k hk => ?_⟩
  · have hrun := C23_packet_traversal_refines bvh T hc.toDenotes hdep pk hnan cb fuel (by omega)
    obtain ⟨hfin, hlow, _, _⟩ := C23_packet_offered bvh T hc.toDenotes hdep pk hnan cb hcb fuel (by omega)
    refine ⟨hfin, fun i hu hpos p hp hq hkw hv hhit => ?_⟩
    obtain ⟨⟨t, hfr⟩, _⟩ := hlow
    rw [hfr] at hhit hpos
    have hge := visit_count_ge_final (closer := closerPacket) (idx := bvh.indices) RayPacket4.Lowered.refl
      RayPacket4.Lowered.trans (fun r x => (hcb r x).1) (pass := fun a => a.mask4 { pk with t := t } i)
      (fin := { pk with t := t }) (hit := Aabb.intersect4)
      (by
        intro a r hr hpass
        obtain ⟨⟨t', e'⟩, hle⟩ := hr
        have hm : a.mask4 r i = true := by
          have e1 : r = { pk with t := r.t } := by
            have : { pk with t := t } = { r with t := t' } := e'
            cases r; simp only [RayPacket4.mk.injEq] at this ⊢
            obtain ⟨k1, k2, k3, k4, k5, k6, k7, k8, k9, _⟩ := this
            simp [*]
          rw [e1] at hle ⊢
          unfold Aabb.mask4 at hpass ⊢
          simp only [Bool.and_eq_true] at hpass ⊢
          refine ⟨hpass.1, ?_⟩
          rcases hle i with e | e
          · rw [← e]; exact hpass.2
          · exact lt_of_lt_of_le' hpass.2 e
        unfold Aabb.intersect4
        rw [if_pos ((Vec4.any_iff _).2 ⟨i, by rw [Vec4.get_ofFn]; exact hm⟩)]
        rfl) p T pk (by rw [← hrun]; exact hfin) (by rw [← hrun, hfr]; exact RayPacket4.Lowered.refl _)
    rw [← hrun] at hge
    refine List.count_pos_iff.1 (Nat.lt_of_lt_of_le (List.count_pos_iff.2 ?_) hge)
    have hu' : Usable (({ pk with t := t } : RayPacket4 F32).originOf i) (({ pk with t := t } : RayPacket4 F32).invOf i) := hu
    unfold Aabb.mask4 gt at hhit
    simp only [Bool.and_eq_true] at hhit
    obtain ⟨⟨g0, g1⟩, g2⟩ := hhit
    have go : ∀ {s : F32}, (((boxAt (b.boxes order) p).lane4 { pk with t := t } i).1 <=. s) = true →
        (s <. ((boxAt (b.boxes order) p).lane4 { pk with t := t } i).2) = true → ((zero : F32) <=. s) = true →
        (s <. t.get i) = true → p ∈ T.reach bvh.indices fun a => a.mask4 { pk with t := t } i := by
      intro s l1 l2 l3 l4
      obtain ⟨s', had, l5⟩ := F32.next l2
      exact (reach hu' had p hp hq hkw ⟨thru_of_lane4 hv hu' s l1 (lt_le l2),
        thru_of_lane4 hv hu' s' (le_trans l1 (lt_le had.1)) l5⟩).mem
          fun a ha => mask4_of_thru hu' had.1 (lt_of_le_of_lt' l3 had.1) l4 ha
    have nn := (lt_num g2).1
    have nz := (lt_num g0).1
    cases c : ((zero : F32) <=. ((boxAt (b.boxes order) p).lane4 { pk with t := t } i).1) with
    | true => exact go (le_refl nn) g1 c g2
    | false =>
      refine go (s := zero) ?_ g0 (le_refl nz) hpos
      rcases le_total nz nn with k | k
      · rw [k] at c; cases c
      · exact k
  · obtain ⟨q, e1, e2, _, h2, _⟩ := construct_main bvh T hc k hk
    have need : T.toQuad.stackNeed ≤ 32 := by
      rcases hdep with hdep | hdep
      · refine C29_quad_depth _ ?_
        by_cases h1 : 1 ≤ T.depth
        · have := toQuad_depth' T h1; omega
        · have := toQuad_depth T; omega
      · have := toQuad_need T; omega
    refine ⟨q, e1, T.toQuad.rounds, fun fuel hf pk cb hcb => ?_⟩
    have hrun := (C28_traversal_refines q T.toQuad e2 need fuel hf).2 cb pk
    obtain ⟨hfin, hlow, _, _⟩ := C28_packet_offered q T.toQuad e2 need pk cb hcb fuel hf
    refine ⟨hfin, fun i hu p hp hq hkw hv hhit => ?_⟩
    obtain ⟨⟨t, hfr⟩, _⟩ := hlow
    rw [hfr] at hhit
    have hge := T.toQuad.visit_count_ge_final (idx := q.primIndices) RayPacket4.Lowered.refl RayPacket4.Lowered.trans
      (fun r x => (hcb r x).1) (pass := fun a => quadTest4 a { pk with t := t } i)
      (fin := { pk with t := t }) (hit := quadHit4) quadHit4_perm
      (by
        intro bs r s hr hpass
        show (bs.map fun b => (Vec4.ofFn (quadTest4 b r)).any).get s = true
        rw [Vec4.get_map]
        exact (Vec4.any_iff _).2 ⟨i, by rw [Vec4.get_ofFn]; exact quadTest4_lowered hr hpass⟩) p pk
      (by rw [← hrun]; exact hfin) (by rw [← hrun, hfr]; exact RayPacket4.Lowered.refl _)
    rw [T.toQuad.root_reach e2.unfolds.root_isQuad, ← hrun] at hge
    refine List.count_pos_iff.1 (Nat.lt_of_lt_of_le (List.count_pos_iff.2 ?_) hge)
    have hu' : Usable (({ pk with t := t } : RayPacket4 F32).originOf i) (({ pk with t := t } : RayPacket4 F32).invOf i) := hu
    unfold quadTest4 gt at hhit
    simp only [Bool.and_eq_true] at hhit
    obtain ⟨g1, g2⟩ := hhit
    obtain ⟨s', had, l5⟩ := F32.next g1
    rw [h2]
    exact (reach hu' had p hp hq hkw ⟨thru_of_quadLane4 hv hu' _ (le_refl (lt_num g2).1) (lt_le g1),
      thru_of_quadLane4 hv hu' s' (lt_le had.1) l5⟩).toQuad.mem fun a ha => quadTest4_of_thru hu' had.1 g2 ha

theorem valid_of_within {a c : Aabb F} (hv : a.Valid) (h : a.Within c) : c.Valid :=
  ⟨le_trans h.1.1 (le_trans hv.1 h.2.1), le_trans h.1.2.1 (le_trans hv.2.1 h.2.2.1),
    le_trans h.1.2.2 (le_trans hv.2.2 h.2.2.2)⟩

/-- C97 in terms of exact geometry, binary32: if the box handed to the builder contains, with a margin of 1e-4 on all
sides, a box `a` with coordinates at most 200 in size that the ray meets in exact arithmetic, then the primitive is
yielded; rays not parallel to a coordinate plane.  Without the margin it is false (`C97_hit_lost`). -/
theorem C97_margin_partial {b : Builder F32}
    {split : Nat → Fin 3 → F32 → Aabb F32 × Aabb F32} {sort : Fin 3 → List (Ref F32) → Option (List (Ref F32))}
    {order ks : List Nat} (h : b.LegalSpatial order sort) (hn : ∀ a ∈ b.boxes order, a.Numeric)
    (hsp : ∀ i a x, (split i a x).1.Numeric ∧ (split i a x).2.Numeric) {bvh : Bvh F32}
    (e : b.constructSpatialSah split sort order ks = .ok (.ok (some bvh)))
    {T : BTree F32} (hU : Unfolds bvh.nodes 0 T)
    (p : Nat) (hp : p < b.primitives.length)
    (hq : b.SparesSpatial split sort order (T.withIds bvh.indices) p)
    (hkw : b.KeptWhole split order (T.ids bvh.indices) p) (a : Aabb F32) (ha : a.Moderate)
    (hin : (a.offsetBy (lit 1 (-4))).Within (boxAt (b.boxes order) p)) :
    (T.depth ≤ 31 → ∀ fuel ≥ 3 * referenceLimit F32 b.primitives.length + 2, ∀ (ray : Ray F32)
      (cb : Ray F32 → Nat → Ray F32 × Bool), ray.WellFormed → Usable ray.origin ray.invDirection →
      ray.origin.Moderate → ray.direction.Ordinary → ray.direction.NoNegZero → ray.tMin.IsFin →
      (∀ r id, ∃ t, cb r id = ({ r with t := t }, false)) → ∀ s : ℚ, ray.tMin.val ≤ s →
      a.exact.Has (pointOn ray.origin ray.direction s) → p ∈ (bvh.forIndices cb fuel ray).items) ∧
    (T.depth ≤ 31 → ∀ fuel ≥ 3 * referenceLimit F32 b.primitives.length + 2,
      ∀ (pk : RayPacket4 F32) (cb : RayPacket4 F32 → Nat → RayPacket4 F32 × Bool), pk.hasNaN = false → pk.WellFormed →
      (∀ r id, r.Lowered (cb r id).1 ∧ (cb r id).2 = false) →
      ∀ i, Usable (pk.originOf i) (pk.invOf i) → (pk.originOf i).Moderate → (pk.dirOf i).Ordinary → ∀ s : ℚ, 0 ≤ s →
      ((bvh.forIndicesPacket cb fuel pk).ray.t.get i).Above s →
      a.exact.Has (pointOn (pk.originOf i) (pk.dirOf i) s) → p ∈ (bvh.forIndicesPacket cb fuel pk).items) ∧
    (T.depth ≤ 22 ∨ T.leaves ≤ 65 → ∀ k > T.depth, ∃ q : Mbvh F32, Mbvh.construct k bvh = some q ∧ ∃ N, ∀ fuel ≥ N,
      (∀ (ray : Ray F32) (cb : Ray F32 → Nat → Ray F32 × Bool), ray.invDirection = recip3 ray.direction →
        Usable ray.origin ray.invDirection → ray.origin.Moderate → ray.direction.Ordinary →
        (∀ r id, r.Lowered (cb r id).1 ∧ (cb r id).2 = false) → ∀ s : ℚ, (q.forIndices cb fuel ray).ray.t.Above s →
        a.exact.Has (pointOn ray.origin ray.direction s) → p ∈ (q.forIndices cb fuel ray).items) ∧
      (∀ (pk : RayPacket4 F32) (cb : RayPacket4 F32 → Nat → RayPacket4 F32 × Bool), pk.WellFormed →
        (∀ r id, r.Lowered (cb r id).1 ∧ (cb r id).2 = false) →
        ∀ i, Usable (pk.originOf i) (pk.invOf i) → (pk.originOf i).Moderate → (pk.dirOf i).Ordinary → ∀ s : ℚ,
        ((q.forIndicesPacket cb fuel pk).ray.t.get i).Above s →
        a.exact.Has (pointOn (pk.originOf i) (pk.dirOf i) s) → p ∈ (q.forIndicesPacket cb fuel pk).items)) := by
  obtain ⟨H1, H2⟩ := C97_spatial_query_partial h hn hsp e hU
  obtain ⟨K1, K2⟩ := C97_packets_partial h hn hsp e hU
  refine ⟨fun hdep fuel hf ray cb hw hu ho hd hz hti hcb s hts hhit => ?_,
    fun hdep fuel hf pk cb hnan hw hcb i hu ho hd s h0 hts hhit => ?_, fun hdep k hk => ?_⟩
  · have hseen := seen ha ho hd hhit
    obtain ⟨h1, h2⟩ := ray_hits ha ho hd hz hw hhit hti hts
    have hnan : ray.hasNaN = false := by
      simp [Ray.hasNaN, Vec3.isNaN, ho.1.num, ho.2.1.num, ho.2.2.num, hd.1.num, hd.2.1.num, hd.2.2.num]
    refine (H1 hdep fuel hf ray cb hnan h2 hu hcb).2 p hp hq hkw (valid_of_within hseen.valid hin) ?_
    refine (C36_ray_monotone hin h2 ?_ ?_).1 h1
    · rw [hw.1]; exact hseen.noNaN
    · rw [hw.1]; exact hseen.wider _ hin
  · have hseen := seen ha ho hd hhit
    obtain ⟨_, ⟨⟨t, hrun⟩, _⟩, _, _⟩ := C23_packet_offered bvh T
      (by obtain ⟨T', hc, _⟩ := C26_spatial_compact h e; have := hU.det hc.unfolds; subst this; exact hc.toDenotes)
      hdep pk hnan cb hcb fuel
      (by obtain ⟨T', hc, hr⟩ := C26_spatial_compact h e; have := hU.det hc.unfolds; subst this; omega)
    refine (K1 hdep fuel hf pk cb hnan hcb).2 i hu (hts.gt zero_fin.1 (by rw [zero_fin.2]; exact h0)) p hp hq hkw
      (valid_of_within hseen.valid hin) ?_
    refine (C36_packet_monotone hin hseen.valid i ?_ ?_ ?_).1
    · rw [hrun]; show (a.offsetBy (lit 1 (-4))).NoNaN (pk.originOf i) (pk.invOf i); rw [hw i]; exact hseen.noNaN
    · rw [hrun]; show (boxAt (b.boxes order) p).NoNaN (pk.originOf i) (pk.invOf i); rw [hw i]; exact hseen.wider _ hin
    · refine Seen.mask4 (s := s) ?_ ?_ h0 hts
      · rw [hrun]; exact hseen
      · rw [hrun]; exact hw i
  · obtain ⟨q, e1, N, hN⟩ := H2 hdep k hk
    obtain ⟨q', e1', N', hN'⟩ := K2 hdep k hk
    have := Option.some.inj (e1.symm.trans e1'); subst this
    obtain ⟨T', hc, hr⟩ := C26_spatial_compact h e
    have := hU.det hc.unfolds; subst this
    obtain ⟨q', e2, e3, _⟩ := construct_main bvh T hc k hk
    have := Option.some.inj (e1.symm.trans e2); subst this
    have need : T.toQuad.stackNeed ≤ 32 := by
      rcases hdep with hdep | hdep
      · refine C29_quad_depth _ ?_
        by_cases h1 : 1 ≤ T.depth
        · have := toQuad_depth' T h1; omega
        · have := toQuad_depth T; omega
      · have := toQuad_need T; omega
    refine ⟨q, e1, Max.max T.toQuad.rounds (Max.max N N'), fun fuel hf => ⟨fun ray cb hw hu ho hd hcb s hts hhit => ?_,
      fun pk cb hw hcb i hu ho hd s hts hhit => ?_⟩⟩
    · have hseen := seen ha ho hd hhit
      obtain ⟨_, ⟨⟨t, hrun⟩, _⟩, _, _⟩ := C28_ray_offered q T.toQuad e3 need ray cb hcb fuel (by omega)
      refine (hN fuel (by omega) ray cb hu hcb).2 p hp hq hkw (valid_of_within hseen.valid hin) ?_
      refine (C36_quad_monotone hin hseen.valid).1 _ ?_ ?_ (Seen.quadTest (s := s) ?_ ?_ hts)
      · rw [hrun]; show (a.offsetBy (lit 1 (-4))).NoNaN ray.origin ray.invDirection; rw [hw]; exact hseen.noNaN
      · rw [hrun]; show (boxAt (b.boxes order) p).NoNaN ray.origin ray.invDirection; rw [hw]; exact hseen.wider _ hin
      · rw [hrun]; exact hseen
      · rw [hrun]; exact hw
    · have hseen := seen ha ho hd hhit
      obtain ⟨_, ⟨⟨t, hrun⟩, _⟩, _, _⟩ := C28_packet_offered q T.toQuad e3 need pk cb hcb fuel (by omega)
      refine (hN' fuel (by omega) pk cb hcb).2 i hu p hp hq hkw (valid_of_within hseen.valid hin) ?_
      refine (C36_quad_monotone hin hseen.valid).2 _ i ?_ ?_ (Seen.quadTest4 (s := s) ?_ ?_ hts)
      · rw [hrun]; show (a.offsetBy (lit 1 (-4))).NoNaN (pk.originOf i) (pk.invOf i); rw [hw i]; exact hseen.noNaN
      · rw [hrun]; show (boxAt (b.boxes order) p).NoNaN (pk.originOf i) (pk.invOf i); rw [hw i]; exact hseen.wider _ hin
      · rw [hrun]; exact hseen
      · rw [hrun]; exact hw i

/-- A triangle in the plane x = 41, with coordinates of at most 70. -/
def wallTri : Triangle F32 := ⟨pt 41 64 64, pt 41 70 64, pt 41 64 70⟩
/-- The same and two other triangles. -/
def wallTris : List (Triangle F32) := [⟨pt 0 0 0, pt 1 0 0, pt 0 1 0⟩, ⟨pt 10 64 64, pt 11 64 64, pt 10 64 65⟩, wallTri]
/-- A builder for them, with tight boxes. -/
def wallScene : Builder F32 := { triScene wallTris with primitivesPerLeaf := some 1 }
/-- The ray from the origin to the corner of `wallTri`. -/
def wallRay : Ray F32 := Ray.new (pt 0 0 0) (pt 41 64 64)

theorem wallScene_legal : wallScene.LegalSpatial [0, 1, 2] refSort :=
  { nonempty := by decide
    boxes := by decide
    order := by decide
    small := by decide
    fits := by decide +kernel
    sorts := refSort_sorts }

/-- C97 is false for boxes without a margin, even in a build without harmful moves and at ordinary scale: the leaves of
the spatial builder are not padded, unlike those of the other builders (`C95_locb`).  The ray from the origin to a corner of
triangle 2 meets it, exactly and by the crate's own triangle test, but neither the `Bvh` nor the `Mbvh` offers it. -/
theorem C97_hit_lost : ∃ (bvh : Bvh F32) (T : BTree F32) (q : Mbvh F32), wallScene.LegalSpatial [0, 1, 2] refSort ∧
    wallScene.constructSpatialSah (fun i => clipBox (boxAt (wallScene.boxes [0, 1, 2]) i)) refSort [0, 1, 2]
      (List.replicate 10 0) = .ok (.ok (some bvh)) ∧ Unfolds bvh.nodes 0 T ∧ Mbvh.construct 10 bvh = some q ∧
    wallScene.QuietSpatial (fun i => clipBox (boxAt (wallScene.boxes [0, 1, 2]) i)) refSort [0, 1, 2]
      (T.withIds bvh.indices) ∧
    wallRay.WellFormed ∧ Usable wallRay.origin wallRay.invDirection ∧ wallRay.origin.Moderate ∧
    wallRay.direction.Ordinary ∧ wallRay.direction.NoNegZero ∧ wallRay.tMin.val ≤ 1 ∧ wallRay.t.Above 1 ∧
    wallTris[2]? = some wallTri ∧ (boxAt (wallScene.boxes [0, 1, 2]) 2).Moderate ∧
    (boxAt (wallScene.boxes [0, 1, 2]) 2).exact.Has (pointOn wallRay.origin wallRay.direction 1) ∧
    wallTri.exact.Has (pointOn wallRay.origin wallRay.direction 1) ∧ (wallTri.intersect wallRay).2 = true ∧
    2 ∉ (bvh.forIndices (fun r _ => (r, false)) 100 wallRay).items ∧
    2 ∉ (q.forIndices (fun r _ => (r, false)) 100 wallRay).items := by
  have key : (spatialBuilt (wallScene.constructSpatialSah (fun i => clipBox (boxAt (wallScene.boxes [0, 1, 2]) i)) refSort
      [0, 1, 2] (List.replicate 10 0))).bind (fun x => (Mbvh.construct 10 x.1).map fun q =>
        decide (2 ∉ (x.1.forIndices (fun r _ => (r, false)) 100 wallRay).items ∧
          2 ∉ (q.forIndices (fun r _ => (r, false)) 100 wallRay).items)) = some true := by
    decide +kernel
  rw [Option.bind_eq_some_iff] at key
  obtain ⟨⟨bvh, T⟩, h1, h2⟩ := key
  rw [Option.map_eq_some_iff] at h2
  obtain ⟨q, h2, h3⟩ := h2
  obtain ⟨e, hU⟩ := spatialBuilt_some h1
  exact ⟨bvh, T, q, wallScene_legal, e, hU, h2, quiet_spatial wallScene_legal e hU (by decide +kernel),
    by unfold Ray.WellFormed; decide +kernel, by unfold Usable Vec3.Finite Vec3.NonZero Fin' Rtbvh.NonZero; decide +kernel,
    by unfold Vec3.Moderate; decide +kernel,
    by unfold Vec3.Ordinary; decide +kernel, by unfold Vec3.NoNegZero; decide +kernel, by decide +kernel, by decide +kernel,
    rfl, by unfold Aabb.Moderate Vec3.Moderate; decide +kernel, by decide +kernel, ⟨0, 0, by decide +kernel⟩,
    by decide +kernel, of_decide_eq_true h3⟩

/-- The same triangles with boxes 1e-3 larger on all sides. -/
def fatScene : Builder F32 :=
  { wallScene with aabbs := some (wallTris.map fun t => (triBox t).offsetBy (lit 1 (-3))) }

/-- Four copies of `wallRay`. -/
def wallPacket : RayPacket4 F32 :=
  RayPacket4.new (fun _ => ⟨zero, zero, zero, one⟩) (fun _ => ⟨lit 41 0, lit 64 0, lit 64 0, zero⟩)

/-- Not vacuous: with a margin the same build is quiet, every hypothesis of the three theorems holds for the ray (or the
packet of its copies, whose final `t` is still positive) and triangle 2, and the ray is offered triangle 2. -/
example : ∃ (bvh : Bvh F32) (T : BTree F32) (q : Mbvh F32), fatScene.LegalSpatial [0, 1, 2] refSort ∧
    (∀ a ∈ fatScene.boxes [0, 1, 2], a.Numeric) ∧
    fatScene.constructSpatialSah (fun i => clipBox (boxAt (fatScene.boxes [0, 1, 2]) i)) refSort [0, 1, 2]
      (List.replicate 10 0) = .ok (.ok (some bvh)) ∧ Mbvh.construct 10 bvh = some q ∧ Unfolds bvh.nodes 0 T ∧
    fatScene.QuietSpatial (fun i => clipBox (boxAt (fatScene.boxes [0, 1, 2]) i)) refSort [0, 1, 2]
      (T.withIds bvh.indices) ∧ 1 < T.leaves ∧ T.depth ≤ 9 ∧
    Usable wallRay.origin wallRay.invDirection ∧ (boxAt (fatScene.boxes [0, 1, 2]) 2).Valid ∧
    ((boxAt (fatScene.boxes [0, 1, 2]) 2).intersect wallRay).isSome = true ∧
    wallPacket.WellFormed ∧ wallPacket.hasNaN = false ∧
    (boxAt (fatScene.boxes [0, 1, 2]) 2).mask4 (bvh.forIndicesPacket (fun r _ => (r, false)) 100 wallPacket).ray 0 = true ∧
    ((zero : F32) <. (bvh.forIndicesPacket (fun r _ => (r, false)) 100 wallPacket).ray.t.get 0) = true ∧
    quadTest (boxAt (fatScene.boxes [0, 1, 2]) 2) (q.forIndices (fun r _ => (r, false)) 100 wallRay).ray = true ∧
    quadTest4 (boxAt (fatScene.boxes [0, 1, 2]) 2) (q.forIndicesPacket (fun r _ => (r, false)) 100 wallPacket).ray 0 = true ∧
    2 ∈ (bvh.forIndices (fun r _ => (r, false)) 100 wallRay).items := by
  have hl : fatScene.LegalSpatial [0, 1, 2] refSort :=
    { nonempty := by decide, boxes := by decide, order := by decide, small := by decide
      fits := by decide +kernel
      sorts := refSort_sorts }
  have hn : ∀ a ∈ fatScene.boxes [0, 1, 2], a.Numeric := by unfold Aabb.Numeric Vec3.Numeric; decide +kernel
  have key : (spatialBuilt (fatScene.constructSpatialSah (fun i => clipBox (boxAt (fatScene.boxes [0, 1, 2]) i)) refSort
      [0, 1, 2] (List.replicate 10 0))).bind (fun x => (Mbvh.construct 10 x.1).map fun q =>
      decide ((1 < x.2.leaves ∧ x.2.depth ≤ 9) ∧
        (boxAt (fatScene.boxes [0, 1, 2]) 2).mask4 (x.1.forIndicesPacket (fun r _ => (r, false)) 100 wallPacket).ray 0 = true ∧
        ((zero : F32) <. (x.1.forIndicesPacket (fun r _ => (r, false)) 100 wallPacket).ray.t.get 0) = true ∧
        quadTest (boxAt (fatScene.boxes [0, 1, 2]) 2) (q.forIndices (fun r _ => (r, false)) 100 wallRay).ray = true ∧
        quadTest4 (boxAt (fatScene.boxes [0, 1, 2]) 2) (q.forIndicesPacket (fun r _ => (r, false)) 100 wallPacket).ray 0 =
          true)) = some true := by
    decide +kernel
  rw [Option.bind_eq_some_iff] at key
  obtain ⟨⟨bvh, T⟩, h1, h2⟩ := key
  rw [Option.map_eq_some_iff] at h2
  obtain ⟨q, hqq, h2⟩ := h2
  obtain ⟨⟨h2, h3⟩, h4, h5, h6, h7⟩ := of_decide_eq_true h2
  replace h3 : T.depth ≤ 9 := h3
  obtain ⟨e, hU⟩ := spatialBuilt_some h1
  have hq := quiet_spatial hl e hU (by decide +kernel)
  obtain ⟨H1, _⟩ := C97_margin_partial hl hn (fun i a x => clipBox_num (boxAt_num hn i) a x) e hU 2 (by decide)
    (hq.spares 2) (.inl rfl) (triBox wallTri)
    (by unfold Aabb.Moderate Vec3.Moderate; decide +kernel) (by decide +kernel)
  have use : Usable wallRay.origin wallRay.invDirection := by
    unfold Usable Vec3.Finite Vec3.NonZero Fin' Rtbvh.NonZero; decide +kernel
  exact ⟨bvh, T, q, hl, hn, e, hqq, hU, hq, h2, h3, use, by decide +kernel, by decide +kernel,
    by unfold RayPacket4.WellFormed; decide +kernel, by decide +kernel, h4, h5, h6, h7,
    H1 (by omega) 100 (by decide +kernel) wallRay _ (by unfold Ray.WellFormed; decide +kernel) use
      (by unfold Vec3.Moderate; decide +kernel) (by unfold Vec3.Ordinary; decide +kernel)
      (by unfold Vec3.NoNegZero; decide +kernel) (by decide +kernel) (fun r _ => ⟨r.t, rfl⟩) 1 (by decide +kernel)
      (by decide +kernel)⟩

end Rtbvh
