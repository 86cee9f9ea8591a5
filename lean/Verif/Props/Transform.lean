import Verif.Props.Exact
import Verif.Props.TrianglePacket
/-
C88: `Aabb::transformed` in rounded arithmetic.  `all_corners` computes six of the eight corners as
`min + (max - min)`; where that falls short of `max` the transformed box loses part of the contents.
-/
namespace Rtbvh
open FloatOps LawfulFloat Aabb
variable {F : Type} [FloatOps F] [LawfulFloat F]

/-- The corners that `all_corners` recomputes reach the corners of the box: on every axis `min + (max - min)`, as
rounded, is not below `max`. -/
def Aabb.Reaches (a : Aabb F) : Prop :=
  (a.max.x <=. a.min.x +. (a.max.x -. a.min.x)) = true ∧ (a.max.y <=. a.min.y +. (a.max.y -. a.min.y)) = true ∧
    (a.max.z <=. a.min.z +. (a.max.z -. a.min.z)) = true

theorem zero_le_zero' : ((zero : F) <=. zero) = true := lit_nonneg 0 (by omega)

/-- The value of coordinate `x` of a corner relative to the interval `[lo, hi]`: past the chosen end. -/
def Past (i : Bool) (lo hi x : F) : Prop := if i then (hi <=. x) = true else (x <=. lo) = true

theorem past_far {lo hi l : F} (h : (hi <=. lo +. l) = true) (hn : Num (lo +. l +. zero)) : Past true lo hi (lo +. l +. zero) :=
  le_trans h (le_add zero_le_zero' hn)

theorem past_far' {lo hi l : F} (h : (hi <=. lo +. l) = true) (hn : Num (lo +. zero +. l)) :
    Past true lo hi (lo +. zero +. l) :=
  le_trans h (add_mono _ (le_add zero_le_zero' (add_num hn).1) (le_num h).2 hn)

theorem past_near {lo hi : F} (hn : Num (lo +. zero)) : Past false lo hi (lo +. zero) := add_le zero_le_zero' hn

theorem past_near' {lo hi : F} (hn : Num (lo +. zero +. zero)) : Past false lo hi (lo +. zero +. zero) :=
  le_trans (add_le zero_le_zero' hn) (add_le zero_le_zero' (add_num hn).1)

/-- Every corner of the box is reached by a listed corner. -/
theorem corners_reach {a : Aabb F} (hr : a.Reaches) (hc : ∀ c ∈ a.allCorners, c.Numeric) (hm : a.max.Numeric)
    (i j k : Bool) : ∃ c ∈ a.allCorners, Past i a.min.x a.max.x c.x ∧ Past j a.min.y a.max.y c.y ∧
      Past k a.min.z a.max.z c.z := by
  obtain ⟨rx, ry, rz⟩ := hr
  have hmin := hc a.min (by simp [Aabb.allCorners])
  have p0 : ∀ {x : F}, Num x → (x <=. x) = true := fun h => le_refl h
  cases i <;> cases j <;> cases k
  · exact ⟨a.min, by simp [Aabb.allCorners], p0 hmin.1, p0 hmin.2.1, p0 hmin.2.2⟩
  · refine ⟨_, List.mem_of_getElem? (i := 4) rfl, ?_⟩
    have h := hc _ (List.mem_of_getElem? (i := 4) rfl)
    exact ⟨past_near h.1, past_near h.2.1, rz⟩
  · refine ⟨_, List.mem_of_getElem? (i := 3) rfl, ?_⟩
    have h := hc _ (List.mem_of_getElem? (i := 3) rfl)
    exact ⟨past_near h.1, ry, past_near h.2.2⟩
  · refine ⟨_, List.mem_of_getElem? (i := 7) rfl, ?_⟩
    have h := hc _ (List.mem_of_getElem? (i := 7) rfl)
    exact ⟨past_near' h.1, past_far ry h.2.1, past_far' rz h.2.2⟩
  · refine ⟨_, List.mem_of_getElem? (i := 2) rfl, ?_⟩
    have h := hc _ (List.mem_of_getElem? (i := 2) rfl)
    exact ⟨rx, past_near h.2.1, past_near h.2.2⟩
  · refine ⟨_, List.mem_of_getElem? (i := 6) rfl, ?_⟩
    have h := hc _ (List.mem_of_getElem? (i := 6) rfl)
    exact ⟨past_far rx h.1, past_near' h.2.1, past_far' rz h.2.2⟩
  · refine ⟨_, List.mem_of_getElem? (i := 5) rfl, ?_⟩
    have h := hc _ (List.mem_of_getElem? (i := 5) rfl)
    exact ⟨past_far rx h.1, past_far' ry h.2.1, past_near' h.2.2⟩
  · exact ⟨a.max, by simp [Aabb.allCorners], p0 hm.1, p0 hm.2.1, p0 hm.2.2⟩

/-- The row `((p.x a + p.y b) + p.z c) + d` of a matrix product, as rounded (the operands of `*` as glam has them). -/
def rowAt (a b c d : F) (p : Vec3 F) : F := a *. p.x +. b *. p.y +. c *. p.z +. d *. one

theorem coef_sign {a x : F} (h : Num (a *. x)) : ((zero : F) <=. a) = true ∨ (a <=. (zero : F)) = true :=
  le_total (lit_num 0 0) (mul_num h).1

theorem row_le {a b c d : F} {p q : Vec3 F} (hp : Num (rowAt a b c d p)) (hq : Num (rowAt a b c d q))
    (h1 : (a *. p.x <=. a *. q.x) = true) (h2 : (b *. p.y <=. b *. q.y) = true) (h3 : (c *. p.z <=. c *. q.z) = true) :
    (rowAt a b c d p <=. rowAt a b c d q) = true := by
  unfold rowAt at *
  have np := add_num hp
  have nq := add_num hq
  have np' := add_num np.1
  have nq' := add_num nq.1
  exact add_mono _ (add_mono2 (add_mono2 h1 h2 np'.1 nq'.1) h3 np.1 nq.1) hp hq

/-- The chosen end: the far end where the coefficient is not negative. -/
theorem term_up {a lo hi x : F} (hx : (lo <=. x) = true ∧ (x <=. hi) = true) (hn : Num (a *. x)) :
    ∃ i : Bool, ∀ c : F, Past i lo hi c → Num (a *. c) → (a *. x <=. a *. c) = true := by
  rcases coef_sign hn with h | h
  · refine ⟨true, fun c hc n => ?_⟩
    rw [LawfulFloat.mul_comm a x, LawfulFloat.mul_comm a c]
    exact mul_mono h (le_trans hx.2 hc) (by rw [LawfulFloat.mul_comm]; exact hn) (by rw [LawfulFloat.mul_comm]; exact n)
  · refine ⟨false, fun c hc n => ?_⟩
    rw [LawfulFloat.mul_comm a x, LawfulFloat.mul_comm a c]
    exact mul_anti h (le_trans hc hx.1) (by rw [LawfulFloat.mul_comm]; exact n) (by rw [LawfulFloat.mul_comm]; exact hn)

theorem term_down {a lo hi x : F} (hx : (lo <=. x) = true ∧ (x <=. hi) = true) (hn : Num (a *. x)) :
    ∃ i : Bool, ∀ c : F, Past i lo hi c → Num (a *. c) → (a *. c <=. a *. x) = true := by
  rcases coef_sign hn with h | h
  · refine ⟨false, fun c hc n => ?_⟩
    rw [LawfulFloat.mul_comm a x, LawfulFloat.mul_comm a c]
    exact mul_mono h (le_trans hc hx.1) (by rw [LawfulFloat.mul_comm]; exact n) (by rw [LawfulFloat.mul_comm]; exact hn)
  · refine ⟨true, fun c hc n => ?_⟩
    rw [LawfulFloat.mul_comm a x, LawfulFloat.mul_comm a c]
    exact mul_anti h (le_trans hx.2 hc) (by rw [LawfulFloat.mul_comm]; exact hn) (by rw [LawfulFloat.mul_comm]; exact n)

theorem row_num {a b c d : F} {p : Vec3 F} (h : Num (rowAt a b c d p)) :
    Num (a *. p.x) ∧ Num (b *. p.y) ∧ Num (c *. p.z) := by
  unfold rowAt at h
  have h1 := add_num (add_num h).1
  have h2 := add_num h1.1
  exact ⟨h2.1, h2.2, h1.2⟩

/-- A rounded row at a point of the box lies between its values at two of the listed corners. -/
theorem row_between {a : Aabb F} (hr : a.Reaches) (hc : ∀ c ∈ a.allCorners, c.Numeric) {p : Vec3 F} (hp : a.Has p)
    {u v w d : F} (hn : Num (rowAt u v w d p)) (hcn : ∀ c ∈ a.allCorners, Num (rowAt u v w d c)) :
    (∃ c ∈ a.allCorners, (rowAt u v w d c <=. rowAt u v w d p) = true) ∧
      ∃ c ∈ a.allCorners, (rowAt u v w d p <=. rowAt u v w d c) = true := by
  obtain ⟨⟨x0, y0, z0⟩, ⟨x1, y1, z1⟩⟩ := hp
  obtain ⟨n1, n2, n3⟩ := row_num hn
  have hm : a.max.Numeric := ⟨(le_num x1).2, (le_num y1).2, (le_num z1).2⟩
  constructor
  · obtain ⟨i, hi⟩ := term_down ⟨x0, x1⟩ n1
    obtain ⟨j, hj⟩ := term_down ⟨y0, y1⟩ n2
    obtain ⟨k, hk⟩ := term_down ⟨z0, z1⟩ n3
    obtain ⟨c, hmem, h1, h2, h3⟩ := corners_reach hr hc hm i j k
    obtain ⟨m1, m2, m3⟩ := row_num (hcn c hmem)
    exact ⟨c, hmem, row_le (hcn c hmem) hn (hi _ h1 m1) (hj _ h2 m2) (hk _ h3 m3)⟩
  · obtain ⟨i, hi⟩ := term_up ⟨x0, x1⟩ n1
    obtain ⟨j, hj⟩ := term_up ⟨y0, y1⟩ n2
    obtain ⟨k, hk⟩ := term_up ⟨z0, z1⟩ n3
    obtain ⟨c, hmem, h1, h2, h3⟩ := corners_reach hr hc hm i j k
    obtain ⟨m1, m2, m3⟩ := row_num (hcn c hmem)
    exact ⟨c, hmem, row_le hn (hcn c hmem) (hi _ h1 m1) (hj _ h2 m2) (hk _ h3 m3)⟩

omit [LawfulFloat F] in
theorem apply_rows (m : Aabb.Affine F) (p : Vec3 F) : m.apply p =
    ⟨rowAt m.c0.x m.c1.x m.c2.x m.c3.x p, rowAt m.c0.y m.c1.y m.c2.y m.c3.y p,
     rowAt m.c0.z m.c1.z m.c2.z m.c3.z p⟩ := rfl

/-- C88 (the part that holds): if the recomputed corners reach the corners of the box and no NaN arises, `transformed(m)`
contains the image of every point of the box, image and box both computed with rounding.  Missing: boxes whose
recomputed corners fall short (`C88_transformed_misses` refutes those). -/
theorem C88_transformed_partial {a : Aabb F} {m : Aabb.Affine F} (hr : a.Reaches)
    (hc : ∀ c ∈ a.allCorners, c.Numeric ∧ (m.apply c).Numeric) {p : Vec3 F} (hp : a.Has p)
    (hn : (m.apply p).Numeric) : (a.transformed m).Has (m.apply p) := by
  have hall : ∀ c ∈ a.allCorners, (a.transformed m).Has (m.apply c) := by
    intro c hmem
    unfold Aabb.transformed Aabb.fromPoints
    obtain ⟨h1, h2⟩ := foldl_grow (ps := a.allCorners.map m.apply)
      (by intro q hq; obtain ⟨c, h, rfl⟩ := List.mem_map.1 hq; exact (hc c h).2) (a := Aabb.empty) new_numeric
    exact (within_offset_lit h1.num_right (by omega) (by omega) (by omega) (by omega)).has
      (h2 _ (List.mem_map.2 ⟨c, hmem, rfl⟩))
  have hc1 := fun c h => (hc c h).1
  have hx := row_between hr hc1 hp hn.1 (fun c h => (hc c h).2.1)
  have hy := row_between hr hc1 hp hn.2.1 (fun c h => (hc c h).2.2.1)
  have hz := row_between hr hc1 hp hn.2.2 (fun c h => (hc c h).2.2.2)
  obtain ⟨⟨cx, mx, lx⟩, ⟨dx, nx, ux⟩⟩ := hx
  obtain ⟨⟨cy, my, ly⟩, ⟨dy, ny, uy⟩⟩ := hy
  obtain ⟨⟨cz, mz, lz⟩, ⟨dz, nz, uz⟩⟩ := hz
  exact ⟨⟨le_trans (hall _ mx).1.1 lx, le_trans (hall _ my).1.2.1 ly, le_trans (hall _ mz).1.2.2 lz⟩,
    ⟨le_trans ux (hall _ nx).2.1, le_trans uy (hall _ ny).2.2.1, le_trans uz (hall _ nz).2.2.2⟩⟩

/-- `b - a` is a finite binary32 number (values in units of `2^-149`). -/
def ExactDiff (a b : F32) : Prop := ∃ d : F32, Fin' d ∧ d.ord = b.ord - a.ord

theorem ord_add_fin {a b : F32} (ha : Fin' a) (hb : Fin' b) :
    (a +. b).isNaN = false ∧ (a +. b).ord = F32.smag (a.ord + b.ord) := by
  obtain ⟨s, k, hk, rfl⟩ := fin_f32.1 ha
  obtain ⟨s', k', hk', rfl⟩ := fin_f32.1 hb
  exact ⟨F32.isNaN_ofUnits _ _, F32.ord_ofUnits _ _⟩

theorem smag_fin {a : F32} (ha : Fin' a) : F32.smag a.ord = a.ord := by
  obtain ⟨s, k, hk, rfl⟩ := fin_f32.1 ha
  exact F32.smag_ord_fin s k hk

theorem fin_of_ord {a b : F32} (ha : Fin' a) (hb : b.isNaN = false) (h : b.ord = a.ord) : Fin' b := by
  refine fin_between ha ha (F32.le_iff.2 ⟨fin_num ha, hb, by omega⟩) (F32.le_iff.2 ⟨hb, fin_num ha, by omega⟩)

theorem reach_of_exact {a b : F32} (ha : Fin' a) (hb : Fin' b) (h : ExactDiff a b) :
    (b <=. a +. (b -. a)) = true := by
  obtain ⟨d, hd, hv⟩ := h
  have hna : Fin' a.neg := by
    obtain ⟨s, k, hk, rfl⟩ := fin_f32.1 ha
    exact fin_f32.2 ⟨!s, k, hk, rfl⟩
  obtain ⟨n1, o1⟩ := ord_add_fin hb hna
  have e1 : (b -. a).ord = d.ord := by
    change (b +. a.neg).ord = _
    rw [o1, F32.ord_neg, show b.ord + -a.ord = d.ord by omega, smag_fin hd]
  have hf : Fin' (b -. a) := fin_of_ord hd n1 e1
  obtain ⟨n2, o2⟩ := ord_add_fin ha hf
  refine F32.le_iff.2 ⟨fin_num hb, n2, ?_⟩
  rw [o2, e1, show a.ord + d.ord = b.ord by omega, smag_fin hb]

/-- C88 in binary32 for boxes whose three extents are representable (for instance whole coordinates up to `2^23`, or
`min = 0`): nothing else is asked of the box. -/
theorem C88_transformed_f32_partial {a : Aabb F32} {m : Aabb.Affine F32} (h0 : a.min.Finite) (h1 : a.max.Finite)
    (hx : ExactDiff a.min.x a.max.x) (hy : ExactDiff a.min.y a.max.y) (hz : ExactDiff a.min.z a.max.z)
    (hc : ∀ c ∈ a.allCorners, c.Numeric ∧ (m.apply c).Numeric) {p : Vec3 F32} (hp : a.Has p)
    (hn : (m.apply p).Numeric) : (a.transformed m).Has (m.apply p) :=
  C88_transformed_partial ⟨reach_of_exact h0.1 h1.1 hx, reach_of_exact h0.2.1 h1.2.1 hy, reach_of_exact h0.2.2 h1.2.2 hz⟩
    hc hp hn

/-- A box from far left to just right of the origin. -/
def wideBox : Aabb F32 :=
  { min := ⟨lit (-1) 7, zero, zero⟩, extra1 := 0, max := ⟨lit 3 (-1), lit 10 0, one⟩, extra2 := 0 }
/-- A shear: `x' = x - y`. -/
def shear : Aabb.Affine F32 := ⟨⟨one, zero, zero⟩, ⟨lit (-1) 0, one, zero⟩, ⟨zero, zero, one⟩, ⟨zero, zero, zero⟩⟩
/-- A corner of `wideBox`. -/
def wideCorner : Vec3 F32 := ⟨lit 3 (-1), zero, zero⟩

/-- C88 fails in binary32: a finite valid box, an invertible shear without rounding error and a corner of the box whose
image lies outside the transformed box, by far more than the padding of `1e-5`. -/
theorem C88_transformed_misses : ∃ (a : Aabb F32) (m : Aabb.Affine F32) (p : Vec3 F32),
    a.min.Finite ∧ a.max.Finite ∧ a.Has p ∧ m.apply p = p ∧ ((a.transformed m).max.x <. lit 1 (-4)) = true ∧
      (lit 2 (-1) <. p.x) = true ∧ ¬ (a.transformed m).Has (m.apply p) := by
  refine ⟨wideBox, shear, wideCorner, ?_⟩
  unfold Vec3.Finite Fin' Aabb.Has Vec3.Le
  decide +kernel

/-- A box whose corners are recomputed exactly, turned by an eighth. -/
def turnedBox : Aabb F32 :=
  { min := ⟨lit (-1) 0, zero, zero⟩, extra1 := 0, max := ⟨one, one, one⟩, extra2 := 0 }
def eighthTurn : Aabb.Affine F32 :=
  ⟨⟨lit 7071 (-4), lit 7071 (-4), zero⟩, ⟨lit (-7071) (-4), lit 7071 (-4), zero⟩, ⟨zero, zero, one⟩, ⟨one, lit 2 0, zero⟩⟩

example : (turnedBox.transformed eighthTurn).Has (eighthTurn.apply ⟨lit 3 (-1), lit 7 (-1), lit 1 (-1)⟩) := by
  refine C88_transformed_partial ?_ ?_ ?_ ?_
  · unfold Aabb.Reaches; decide +kernel
  · unfold Vec3.Numeric; decide +kernel
  · unfold Aabb.Has Vec3.Le; decide +kernel
  · unfold Vec3.Numeric; decide +kernel

example : ExactDiff turnedBox.min.x turnedBox.max.x ∧ ExactDiff turnedBox.min.y turnedBox.max.y ∧
    ExactDiff turnedBox.min.z turnedBox.max.z ∧ turnedBox.min.Finite ∧ turnedBox.max.Finite := by
  refine ⟨⟨lit 2 0, ?_⟩, ⟨one, ?_⟩, ⟨one, ?_⟩, ?_, ?_⟩ <;> (try unfold Vec3.Finite) <;> unfold Fin' <;> decide +kernel

end Rtbvh
