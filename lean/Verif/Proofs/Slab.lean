import Verif.Spec.Slab
import Verif.Proofs.Box
/- Monotonicity of the slab tests over any lawful float type. -/
namespace Rtbvh
open FloatOps LawfulFloat
variable {F : Type} [FloatOps F] [LawfulFloat F]

theorem lt_num {a b : F} (h : (a <. b) = true) : Num a ∧ Num b := ⟨(lt_iff.1 h).1, (lt_iff.1 h).2.1⟩
theorem lt_le {a b : F} (h : (a <. b) = true) : (a <=. b) = true := by
  obtain ⟨ha, hb, h'⟩ := lt_iff.1 h
  rcases le_total ha hb with h | h
  · exact h
  · rw [h] at h'; cases h'
theorem not_lt_le {a b : F} (ha : Num a) (hb : Num b) (h : (a <. b) = false) : (b <=. a) = true := by
  by_cases h' : (b <=. a) = true
  · exact h'
  · rw [lt_iff.2 ⟨ha, hb, by simpa using h'⟩] at h; cases h
theorem le_not_lt {a b : F} (h : (b <=. a) = true) : (a <. b) = false := by
  rw [← Bool.not_eq_true, lt_iff]
  rintro ⟨_, _, h'⟩; rw [h] at h'; cases h'
theorem lt_of_lt_of_le' {a b c : F} (h : (a <. b) = true) (h' : (b <=. c) = true) : (a <. c) = true := by
  refine lt_iff.2 ⟨(lt_num h).1, (le_num h').2, ?_⟩
  rw [← Bool.not_eq_true]
  intro h2
  have := (lt_iff.1 h).2.2
  rw [le_trans h' h2] at this; cases this
theorem lt_of_le_of_lt' {a b c : F} (h : (a <=. b) = true) (h' : (b <. c) = true) : (a <. c) = true := by
  refine lt_iff.2 ⟨(le_num h).1, (lt_num h').2, ?_⟩
  rw [← Bool.not_eq_true]
  intro h2
  have := (lt_iff.1 h').2.2
  rw [le_trans h2 h] at this; cases this

theorem vmin_isNum {a b : F} (ha : Num a) (hb : Num b) : Num (vmin a b) := by
  rw [vmin_eq]; split <;> assumption
theorem vmax_isNum {a b : F} (ha : Num a) (hb : Num b) : Num (vmax a b) := by
  rw [vmax_eq]; split <;> assumption
theorem vmin_le_left {a b : F} (ha : Num a) (hb : Num b) : (vmin a b <=. a) = true := by
  rw [vmin_eq]; split
  · exact le_refl ha
  · rename_i h; exact not_lt_le ha hb (by simpa using h)
theorem vmin_le_right {a b : F} (_ : Num a) (hb : Num b) : (vmin a b <=. b) = true := by
  rw [vmin_eq]; split
  · rename_i h; exact lt_le h
  · exact le_refl hb
theorem le_vmin {a b c : F} (h : (c <=. a) = true) (h' : (c <=. b) = true) : (c <=. vmin a b) = true := by
  rw [vmin_eq]; split <;> assumption
theorem le_vmax_left {a b : F} (ha : Num a) (hb : Num b) : (a <=. vmax a b) = true := by
  rw [vmax_eq]; split
  · exact le_refl ha
  · rename_i h; exact not_lt_le hb ha (by simpa using h)
theorem le_vmax_right {a b : F} (_ : Num a) (hb : Num b) : (b <=. vmax a b) = true := by
  rw [vmax_eq]; split
  · rename_i h; exact lt_le h
  · exact le_refl hb
theorem vmax_le {a b c : F} (h : (a <=. c) = true) (h' : (b <=. c) = true) : (vmax a b <=. c) = true := by
  rw [vmax_eq]; split <;> assumption

/-- One axis, `inv >= 0`. -/
theorem prod_mono {a b o inv : F} (hi : ((zero : F) <=. inv) = true) (h : (a <=. b) = true)
    (ha : Num ((a -. o) *. inv)) (hb : Num ((b -. o) *. inv)) : ((a -. o) *. inv <=. (b -. o) *. inv) = true :=
  mul_mono hi (sub_mono o h (mul_num ha).1 (mul_num hb).1) ha hb
theorem prod_anti {a b o inv : F} (hi : (inv <=. (zero : F)) = true) (h : (a <=. b) = true)
    (ha : Num ((a -. o) *. inv)) (hb : Num ((b -. o) *. inv)) : ((b -. o) *. inv <=. (a -. o) *. inv) = true :=
  mul_anti hi (sub_mono o h (mul_num ha).1 (mul_num hb).1) ha hb

/-- Enlarging the interval on one axis moves the near product down and the far product up. -/
theorem axis_mono {a1 a2 b1 b2 o inv : F} (hb1 : (b1 <=. a1) = true) (ha : (a1 <=. a2) = true)
    (hb2 : (a2 <=. b2) = true)
    (n1 : Num ((a1 -. o) *. inv)) (n2 : Num ((a2 -. o) *. inv))
    (m1 : Num ((b1 -. o) *. inv)) (m2 : Num ((b2 -. o) *. inv)) :
    (vmin ((b1 -. o) *. inv) ((b2 -. o) *. inv) <=. vmin ((a1 -. o) *. inv) ((a2 -. o) *. inv)) = true ∧
    (vmax ((a1 -. o) *. inv) ((a2 -. o) *. inv) <=. vmax ((b1 -. o) *. inv) ((b2 -. o) *. inv)) = true := by
  rcases le_total (lit_num 0 0 : Num (zero : F)) (mul_num n1).2 with hi | hi
  · have x := prod_mono hi hb1 m1 n1
    have y := prod_mono hi ha n1 n2
    have z := prod_mono hi hb2 n2 m2
    refine ⟨le_vmin (le_trans (vmin_le_left m1 m2) x) (le_trans (vmin_le_left m1 m2) (le_trans x y)), ?_⟩
    exact vmax_le (le_trans (le_trans y z) (le_vmax_right m1 m2)) (le_trans z (le_vmax_right m1 m2))
  · have x := prod_anti hi hb1 m1 n1
    have y := prod_anti hi ha n1 n2
    have z := prod_anti hi hb2 n2 m2
    refine ⟨le_vmin (le_trans (vmin_le_right m1 m2) (le_trans z y)) (le_trans (vmin_le_right m1 m2) z), ?_⟩
    exact vmax_le (le_trans x (le_vmax_left m1 m2)) (le_trans (le_trans y x) (le_vmax_left m1 m2))

namespace Aabb

/-- Near and far products on an axis, as selected by the sign bit. -/
def nearP (lo hi o inv : F) (s : Bool) : F := ((if s then hi else lo) -. o) *. inv

theorem near_mono {a1 a2 b1 b2 o inv : F} {s : Bool} (hb1 : (b1 <=. a1) = true) (hb2 : (a2 <=. b2) = true)
    (hs : if s then (inv <=. (zero : F)) = true else ((zero : F) <=. inv) = true)
    (n1 : Num ((a1 -. o) *. inv)) (n2 : Num ((a2 -. o) *. inv))
    (m1 : Num ((b1 -. o) *. inv)) (m2 : Num ((b2 -. o) *. inv)) :
    (nearP b1 b2 o inv s <=. nearP a1 a2 o inv s) = true ∧
    (nearP a1 a2 o inv (!s) <=. nearP b1 b2 o inv (!s)) = true := by
  cases s
  · exact ⟨prod_mono (by simpa using hs) hb1 m1 n1, prod_mono (by simpa using hs) hb2 n2 m2⟩
  · exact ⟨prod_anti (by simpa using hs) hb2 n2 m2, prod_anti (by simpa using hs) hb1 m1 n1⟩

/-- The scalar part of `slabs`. -/
def slabs6 (nx fx ny fy nz fz : F) : Option F :=
  if fy <. nx || fx <. ny then none else
  let rayMin := if nx <. ny then ny else nx
  let rayMax := if fy <. fx then fy else fx
  if fz <. rayMin || rayMax <. nz then none else
  let rayMax := if fz <. rayMax then fz else rayMax
  some rayMax

omit [LawfulFloat F] in
theorem slabs_eq (a : Aabb F) (r : Ray F) : a.slabs r =
    slabs6 (nearP a.min.x a.max.x r.origin.x r.invDirection.x r.signX)
      (nearP a.min.x a.max.x r.origin.x r.invDirection.x (!r.signX))
      (nearP a.min.y a.max.y r.origin.y r.invDirection.y r.signY)
      (nearP a.min.y a.max.y r.origin.y r.invDirection.y (!r.signY))
      (nearP a.min.z a.max.z r.origin.z r.invDirection.z r.signZ)
      (nearP a.min.z a.max.z r.origin.z r.invDirection.z (!r.signZ)) := by
  unfold slabs slabs6 nearP corner
  cases r.signX <;> cases r.signY <;> cases r.signZ <;> rfl

omit [LawfulFloat F] in
theorem nearP_num {a1 a2 o inv : F} (s : Bool) (n1 : Num ((a1 -. o) *. inv)) (n2 : Num ((a2 -. o) *. inv)) :
    Num (nearP a1 a2 o inv s) := by
  cases s <;> assumption

/-- With numbers only, the code's test is: every near product of one axis is at most the far product of every other
axis, and the threshold is below all three far products. -/
theorem slabs6_iff {nx fx ny fy nz fz thr : F} (h1 : Num nx) (h2 : Num fx) (h3 : Num ny) (h4 : Num fy) (h5 : Num nz)
    (h6 : Num fz) : (∃ r, slabs6 nx fx ny fy nz fz = some r ∧ (thr <. r) = true) ↔
      (nx <=. fy) = true ∧ (ny <=. fx) = true ∧ (nx <=. fz) = true ∧ (ny <=. fz) = true ∧
      (nz <=. fx) = true ∧ (nz <=. fy) = true ∧ (thr <. fx) = true ∧ (thr <. fy) = true ∧ (thr <. fz) = true := by
  unfold slabs6
  have two : ∀ {a b : F}, Num a → Num b → ((a <. b) = true ∧ (a <=. b) = true) ∨ ((a <. b) = false ∧ (b <=. a) = true) := by
    intro a b ha hb
    by_cases h : (a <. b) = true
    · exact .inl ⟨h, lt_le h⟩
    · exact .inr ⟨by simpa using h, not_lt_le ha hb (by simpa using h)⟩
  have nle : ∀ {a b : F}, (a <. b) = true → (b <=. a) ≠ true := by
    intro a b h h'; rw [le_not_lt h'] at h; cases h
  rcases two h4 h1 with ⟨e1, l1⟩ | ⟨e1, l1⟩
  · simp only [e1, Bool.true_or, if_true, reduceCtorEq, false_and, exists_false, false_iff]
    rintro ⟨h, _⟩; exact nle e1 h
  rcases two h2 h3 with ⟨e2, l2⟩ | ⟨e2, l2⟩
  · simp only [e2, Bool.or_true, if_true, reduceCtorEq, false_and, exists_false, false_iff]
    rintro ⟨_, h, _⟩; exact nle e2 h
  simp only [e1, e2, Bool.or_false, Bool.false_eq_true, if_false]
  -- entry
  have hent : ∃ m, (if (nx <. ny) = true then ny else nx) = m ∧ Num m ∧ (nx <=. m) = true ∧ (ny <=. m) = true ∧
      ∀ c, (nx <=. c) = true → (ny <=. c) = true → (m <=. c) = true := by
    rcases two h1 h3 with ⟨e, l⟩ | ⟨e, l⟩
    · exact ⟨ny, by rw [if_pos e], h3, l, le_refl h3, fun c _ h => h⟩
    · exact ⟨nx, by rw [if_neg (by rw [e]; simp)], h1, le_refl h1, l, fun c h _ => h⟩
  have hext : ∃ m, (if (fy <. fx) = true then fy else fx) = m ∧ Num m ∧ (m <=. fx) = true ∧ (m <=. fy) = true ∧
      (∀ c, (c <=. fx) = true → (c <=. fy) = true → (c <=. m) = true) ∧
      (∀ c, (c <. fx) = true → (c <. fy) = true → (c <. m) = true) := by
    rcases two h4 h2 with ⟨e, l⟩ | ⟨e, l⟩
    · exact ⟨fy, by rw [if_pos e], h4, l, le_refl h4, fun c _ h => h, fun c _ h => h⟩
    · exact ⟨fx, by rw [if_neg (by rw [e]; simp)], h2, le_refl h2, l, fun c h _ => h, fun c h _ => h⟩
  obtain ⟨m, em, nm, m1, m2, m3⟩ := hent
  obtain ⟨M, eM, nM, M1, M2, M3, M4⟩ := hext
  rw [em, eM]
  rcases two h6 nm with ⟨e3, l3⟩ | ⟨e3, l3⟩
  · simp only [e3, Bool.true_or, if_true, reduceCtorEq, false_and, exists_false, false_iff]
    rintro ⟨_, _, h, h', _⟩; exact nle e3 (m3 _ h h')
  rcases two nM h5 with ⟨e4, l4⟩ | ⟨e4, l4⟩
  · simp only [e4, Bool.or_true, if_true, reduceCtorEq, false_and, exists_false, false_iff]
    rintro ⟨_, _, _, _, h, h', _⟩; exact nle e4 (M3 _ h h')
  simp only [e3, e4, Bool.or_false, Bool.false_eq_true, if_false, Option.some.injEq, exists_eq_left']
  constructor
  · intro h
    have hb : (thr <. M) = true ∧ (thr <. fz) = true := by
      rcases two h6 nM with ⟨e, l⟩ | ⟨e, l⟩
      · rw [if_pos e] at h; exact ⟨lt_of_lt_of_le' h l, h⟩
      · rw [if_neg (by rw [e]; simp)] at h; exact ⟨h, lt_of_lt_of_le' h l⟩
    exact ⟨l1, l2, le_trans m1 l3, le_trans m2 l3, le_trans l4 M1, le_trans l4 M2,
      lt_of_lt_of_le' hb.1 M1, lt_of_lt_of_le' hb.1 M2, hb.2⟩
  · rintro ⟨_, _, _, _, _, _, g1, g2, g3⟩
    have := M4 _ g1 g2
    split <;> assumption

/-- Threshold version of the single-ray test. -/
def passes (a : Aabb F) (r : Ray F) (thr : F) : Prop := ∃ e, a.slabs r = some e ∧ (thr <. e) = true

omit [LawfulFloat F] in
theorem intersect_isSome (a : Aabb F) (r : Ray F) : (a.intersect r).isSome = true ↔ a.passes r r.tMin := by
  unfold intersect passes
  cases h : a.slabs r with
  | none => simp
  | some e =>
    by_cases h' : (r.tMin <. e) = true
    · simp only [if_pos (show (e >. r.tMin) = true from h')]; simp [h']
    · simp only [if_neg (show ¬ (e >. r.tMin) = true from h')]; simp [h']
omit [LawfulFloat F] in
theorem intersects_iff (a : Aabb F) (r : Ray F) : a.intersects r = true ↔ a.passes r zero := by
  unfold intersects passes
  cases h : a.slabs r with
  | none => simp
  | some e => simp [gt]

theorem passes_mono {a b : Aabb F} {r : Ray F} {thr : F} (hab : a.Within b) (hr : r.Coherent)
    (na : a.NoNaN r.origin r.invDirection) (nb : b.NoNaN r.origin r.invDirection) (h : a.passes r thr) :
    b.passes r thr := by
  obtain ⟨n1, n2, n3, n4, n5, n6⟩ := na
  obtain ⟨m1, m2, m3, m4, m5, m6⟩ := nb
  unfold passes at h ⊢
  rw [slabs_eq] at h ⊢
  rw [slabs6_iff (nearP_num _ n1 n2) (nearP_num _ n1 n2) (nearP_num _ n3 n4) (nearP_num _ n3 n4) (nearP_num _ n5 n6)
    (nearP_num _ n5 n6)] at h
  rw [slabs6_iff (nearP_num _ m1 m2) (nearP_num _ m1 m2) (nearP_num _ m3 m4) (nearP_num _ m3 m4) (nearP_num _ m5 m6)
    (nearP_num _ m5 m6)]
  obtain ⟨x1, x2⟩ := near_mono hab.1.1 hab.2.1 hr.1 n1 n2 m1 m2
  obtain ⟨y1, y2⟩ := near_mono hab.1.2.1 hab.2.2.1 hr.2.1 n3 n4 m3 m4
  obtain ⟨z1, z2⟩ := near_mono hab.1.2.2 hab.2.2.2 hr.2.2 n5 n6 m5 m6
  obtain ⟨g1, g2, g3, g4, g5, g6, g7, g8, g9⟩ := h
  exact ⟨le_trans x1 (le_trans g1 y2), le_trans y1 (le_trans g2 x2), le_trans x1 (le_trans g3 z2),
    le_trans y1 (le_trans g4 z2), le_trans z1 (le_trans g5 x2), le_trans z1 (le_trans g6 y2),
    lt_of_lt_of_le' g7 x2, lt_of_lt_of_le' g8 y2, lt_of_lt_of_le' g9 z2⟩

/-- Packet lanes. -/
theorem lane4_mono {a b : Aabb F} {p : RayPacket4 F} {i : Fin 4} (hab : a.Within b) (hv : a.Valid)
    (na : a.NoNaN (p.originOf i) (p.invOf i)) (nb : b.NoNaN (p.originOf i) (p.invOf i)) :
    ((b.lane4 p i).1 <=. (a.lane4 p i).1) = true ∧ ((a.lane4 p i).2 <=. (b.lane4 p i).2) = true := by
  obtain ⟨n1, n2, n3, n4, n5, n6⟩ := na
  obtain ⟨m1, m2, m3, m4, m5, m6⟩ := nb
  obtain ⟨x1, x2⟩ := axis_mono hab.1.1 hv.1 hab.2.1 n1 n2 m1 m2
  obtain ⟨y1, y2⟩ := axis_mono hab.1.2.1 hv.2.1 hab.2.2.1 n3 n4 m3 m4
  obtain ⟨z1, z2⟩ := axis_mono hab.1.2.2 hv.2.2 hab.2.2.2 n5 n6 m5 m6
  have vA := vmin_isNum n1 n2
  have vB := vmin_isNum n3 n4
  have vC := vmin_isNum n5 n6
  have wA := vmax_isNum n1 n2
  have wB := vmax_isNum n3 n4
  have wC := vmax_isNum n5 n6
  have uA := vmax_isNum m1 m2
  have uB := vmax_isNum m3 m4
  have uC := vmax_isNum m5 m6
  refine ⟨?_, ?_⟩
  · exact vmax_le (le_trans x1 (le_vmax_left vA (vmax_isNum vB vC)))
      (vmax_le (le_trans y1 (le_trans (le_vmax_left vB vC) (le_vmax_right vA (vmax_isNum vB vC))))
        (le_trans z1 (le_trans (le_vmax_right vB vC) (le_vmax_right vA (vmax_isNum vB vC)))))
  · exact le_vmin (le_trans (vmin_le_left wA (vmin_isNum wB wC)) x2)
      (le_vmin (le_trans (le_trans (vmin_le_right wA (vmin_isNum wB wC)) (vmin_le_left wB wC)) y2)
        (le_trans (le_trans (vmin_le_right wA (vmin_isNum wB wC)) (vmin_le_right wB wC)) z2))

theorem mask4_mono {a b : Aabb F} {p : RayPacket4 F} {i : Fin 4} (hab : a.Within b) (hv : a.Valid)
    (na : a.NoNaN (p.originOf i) (p.invOf i)) (nb : b.NoNaN (p.originOf i) (p.invOf i)) (h : a.mask4 p i = true) :
    b.mask4 p i = true := by
  obtain ⟨h1, h2⟩ := lane4_mono hab hv na nb
  unfold mask4 at h ⊢
  simp only [gt, Bool.and_eq_true] at h ⊢
  exact ⟨⟨lt_of_lt_of_le' h.1.1 h2, lt_of_le_of_lt' h1 (lt_of_lt_of_le' h.1.2 h2)⟩, lt_of_le_of_lt' h1 h.2⟩

end Aabb
end Rtbvh
