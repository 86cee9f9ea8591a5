import Verif.Props.PacketLanes
/- C37 for the other box tests: quad nodes, packet lanes. -/
namespace Rtbvh
open FloatOps Aabb

/-- Equal numbers, of which the first is non-zero or which are the same bits, are the same bits. -/
theorem num_eq {x y : F32} (h : (x <=. y) = true) (h' : (y <=. x) = true) (h0 : NonZero x ∨ x = y) : x = y := by
  rcases h0 with h0 | h0
  · refine (F32.Sim.of_le h h').eq_of_ne ?_
    rcases h0 with h0 | h0
    · have := (F32.lt_iff'.1 h0).2.2
      change _ < (F32.lit 0 0).ord at this
      rw [F32.ord_zero] at this; omega
    · have := (F32.lt_iff'.1 h0).2.2
      change (F32.lit 0 0).ord < _ at this
      rw [F32.ord_zero] at this; omega
  · exact h0

theorem F32.Sim.symm {a b : F32} (h : F32.Sim a b) : F32.Sim b a := ⟨h.1.symm, h.2.symm⟩

theorem F32.Sim.le {a b a' b' : F32} (h : Sim a b) (h' : Sim a' b') : a.le a' = b.le b' := by
  rw [Bool.eq_iff_iff, F32.le_iff, F32.le_iff, h.1, h.2, h'.1, h'.2]

/-- The slab distance of one plane from numerically equal origins. -/
theorem plane_sim {o o' : F32} (m i : F32) (h : F32.Sim o o') : F32.Sim ((m -. o) *. i) ((m -. o') *. i) :=
  (h.sub_right m).mul_left i

/-- C37 for the single-ray test of quad nodes, the part that holds: binary32 rays made by `Ray::new` from numerically
equal origins and directions, whose direction components are non-zero or the same zero, hit the same slots, and the slots
are offered in the same order.  Missing: `0.0` against `-0.0` (`C37_quad_negative_zero`). -/
theorem C37_equal_rays_quad_partial {o o' d d' : Vec3 F32} (ho : o.NumEq o') (hd : d.NumEq d')
    (hx : NonZero d.x ∨ d.x = d'.x) (hy : NonZero d.y ∨ d.y = d'.y) (hz : NonZero d.z ∨ d.z = d'.z)
    (bs : Vec4 (Aabb F32)) : quadHit bs (Ray.new o d) = quadHit bs (Ray.new o' d') := by
  have ed : d = d' := by
    have h1 := num_eq hd.1.1 hd.2.1 hx
    have h2 := num_eq hd.1.2.1 hd.2.2.1 hy
    have h3 := num_eq hd.1.2.2 hd.2.2.2 hz
    cases d; cases d'; simp_all
  subst ed
  have ox := F32.Sim.of_le ho.1.1 ho.2.1
  have oy := F32.Sim.of_le ho.1.2.1 ho.2.2.1
  have oz := F32.Sim.of_le ho.1.2.2 ho.2.2.2
  have lane : ∀ b : Aabb F32, F32.Sim (quadLane b (Ray.new o d)).1 (quadLane b (Ray.new o' d)).1 ∧
      F32.Sim (quadLane b (Ray.new o d)).2 (quadLane b (Ray.new o' d)).2 := by
    intro b
    constructor
    · exact F32.Sim.vmax (F32.Sim.vmin (plane_sim _ _ ox) (plane_sim _ _ ox))
        (F32.Sim.vmax (F32.Sim.vmin (plane_sim _ _ oy) (plane_sim _ _ oy)) (F32.Sim.vmin (plane_sim _ _ oz) (plane_sim _ _ oz)))
    · exact F32.Sim.vmin (F32.Sim.vmax (plane_sim _ _ ox) (plane_sim _ _ ox))
        (F32.Sim.vmin (F32.Sim.vmax (plane_sim _ _ oy) (plane_sim _ _ oy)) (F32.Sim.vmax (plane_sim _ _ oz) (plane_sim _ _ oz)))
  have test : ∀ b : Aabb F32, quadTest b (Ray.new o d) = quadTest b (Ray.new o' d) := by
    intro b
    unfold quadTest
    have h1 : ((quadLane b (Ray.new o d)).2 >=. (quadLane b (Ray.new o d)).1) =
        ((quadLane b (Ray.new o' d)).2 >=. (quadLane b (Ray.new o' d)).1) := (lane b).1.le (lane b).2
    have h2 : ((quadLane b (Ray.new o d)).1 <. (Ray.new o d).t) = ((quadLane b (Ray.new o' d)).1 <. (Ray.new o' d).t) :=
      (lane b).1.lt (F32.Sim.refl _)
    rw [h1, h2]
  -- the sorting network sees only comparisons
  have sw : ∀ {t t' : Vec4 F32} (a b : Fin 4), (∀ i, F32.Sim (t.get i) (t'.get i)) →
      ∀ i, F32.Sim ((t.swap a b).get i) ((t'.swap a b).get i) := by
    intro t t' a b h i
    unfold Vec4.swap
    simp only [Vec4.get_set]
    split
    · exact h a
    · split
      · exact h b
      · exact h i
  have cs : ∀ {p p' : Vec4 F32 × Vec4 (Fin 4)} (a b : Fin 4), (∀ i, F32.Sim (p.1.get i) (p'.1.get i)) → p.2 = p'.2 →
      (∀ i, F32.Sim ((cswap a b p).1.get i) ((cswap a b p').1.get i)) ∧ (cswap a b p).2 = (cswap a b p').2 := by
    intro p p' a b h e
    have hc : (p.1.get a >. p.1.get b) = (p'.1.get a >. p'.1.get b) := (h b).lt (h a)
    unfold cswap
    rw [hc]
    split
    · exact ⟨sw a b h, by simp only [e]⟩
    · exact ⟨h, e⟩
  have sorted : ∀ {t t' : Vec4 F32}, (∀ i, F32.Sim (t.get i) (t'.get i)) → sortIds t = sortIds t' := by
    intro t t' h
    unfold sortIds
    obtain ⟨h1, e1⟩ := cs (p := (t, ⟨0, 1, 2, 3⟩)) (p' := (t', ⟨0, 1, 2, 3⟩)) 0 1 h rfl
    obtain ⟨h2, e2⟩ := cs 2 3 h1 e1
    obtain ⟨h3, e3⟩ := cs 0 2 h2 e2
    obtain ⟨h4, e4⟩ := cs 1 3 h3 e3
    generalize cswap 1 3 (cswap 0 2 (cswap 2 3 (cswap 0 1 (t, _)))) = p at *
    generalize cswap 1 3 (cswap 0 2 (cswap 2 3 (cswap 0 1 (t', _)))) = p' at *
    have hc : (p.1.get 2 >. p.1.get 3) = (p'.1.get 2 >. p'.1.get 3) := (h4 3).lt (h4 2)
    simp only [hc, e4]
  unfold quadHit
  have e2 : (bs.map fun b => quadTest b (Ray.new o d)) = bs.map fun b => quadTest b (Ray.new o' d) := by
    congr 1; funext b; exact test b
  rw [e2, sorted (t' := bs.map fun b => (quadLane b (Ray.new o' d)).1) (fun i => by
    rw [Vec4.get_map, Vec4.get_map]; exact (lane _).1)]

/-! Packets: the sign of a zero does not matter at all. -/

/-- Proof device: the (near, far) pairs of one axis are numerically equal, or both are an infinity twice. -/
def AxisEq (a b : F32 × F32) : Prop :=
  (F32.Sim a.1 b.1 ∧ F32.Sim a.2 b.2) ∨ ((∃ s, a = (.inf s, .inf s)) ∧ ∃ s, b = (.inf s, .inf s))

/-- Proof device: near and far distance of one axis. -/
def axisPair (lo hi o i : F32) : F32 × F32 :=
  (F32.vmin ((lo.sub o).mul i) ((hi.sub o).mul i), F32.vmax ((lo.sub o).mul i) ((hi.sub o).mul i))

theorem mul_inf_cases {v w : F32} (h : F32.Sim v w) (s s' : Bool) :
    (v.mul (.inf s) = .nan ∧ w.mul (.inf s') = .nan) ∨
    ∃ t : Bool, v.mul (.inf s) = .inf (t != s) ∧ w.mul (.inf s') = .inf (t != s') := by
  rcases h.cases with rfl | ⟨t, t', hk, rfl, rfl⟩
  · cases v with
    | nan => exact .inl ⟨rfl, rfl⟩
    | inf t => exact .inr ⟨t, rfl, rfl⟩
    | fin t k hk =>
      by_cases h0 : k = 0
      · exact .inl ⟨by simp [F32.mul, h0], by simp [F32.mul, h0]⟩
      · exact .inr ⟨t, by simp [F32.mul, h0], by simp [F32.mul, h0]⟩
  · exact .inl ⟨by simp [F32.mul], by simp [F32.mul]⟩

theorem axis_eq {lo hi o o' d d' : F32} (ho : F32.Sim o o') (hd : F32.Sim d d') :
    AxisEq (axisPair lo hi o (F32.div one d)) (axisPair lo hi o' (F32.div one d')) := by
  rcases hd.cases with rfl | ⟨s, s', hk, rfl, rfl⟩
  · have p : ∀ m : F32, F32.Sim ((m.sub o).mul (F32.div one d)) ((m.sub o').mul (F32.div one d)) :=
      fun m => (ho.sub_right m).mul_left _
    exact .inl ⟨F32.Sim.vmin (p _) (p _), F32.Sim.vmax (p _) (p _)⟩
  · have e : ∀ b : Bool, F32.div one (.fin b 0 hk) = .inf b := by
      intro b
      have : (one : F32) = .fin false (2 ^ 149) (by decide +kernel) := by decide +kernel
      rw [this]; cases b <;> simp [F32.div]
    rw [e, e]
    unfold axisPair
    rcases mul_inf_cases (ho.sub_right lo) s s' with ⟨h1, h2⟩ | ⟨t, h1, h2⟩ <;>
      rcases mul_inf_cases (ho.sub_right hi) s s' with ⟨h3, h4⟩ | ⟨u, h3, h4⟩ <;> rw [h1, h2, h3, h4]
    · exact .inl ⟨F32.Sim.refl _, F32.Sim.refl _⟩
    · exact .inr ⟨⟨u != s, rfl⟩, ⟨u != s', rfl⟩⟩
    · exact .inl ⟨F32.Sim.refl _, F32.Sim.refl _⟩
    · clear h1 h2 h3 h4 ho hd
      revert t u s s'
      unfold AxisEq F32.Sim
      decide +kernel

theorem axis_nan (lo hi o i : F32) : (axisPair lo hi o i).1 = .nan ↔ (axisPair lo hi o i).2 = .nan := by
  unfold axisPair
  generalize (lo.sub o).mul i = a
  generalize (hi.sub o).mul i = b
  unfold F32.vmin F32.vmax
  simp only
  constructor
  · intro h
    split at h
    · subst h; rename_i h; simp [F32.lt, F32.isNaN] at h
    · subst h; rw [if_neg (by simp [F32.lt, F32.isNaN])]
  · intro h
    split at h
    · subst h; rename_i h; simp [F32.lt, F32.isNaN] at h
    · subst h; rw [if_neg (by simp [F32.lt, F32.isNaN])]

/-- Proof device: `+∞` (or `-∞`) or NaN. -/
def InfNaN (s : Bool) (x : F32) : Prop := x = .inf s ∨ x = .nan

theorem ord_bounds (x : F32) : -(f32Top : Int) ≤ x.ord ∧ x.ord ≤ (f32Top : Int) := by
  have := f32Top_pos
  cases x with
  | nan => simp [F32.ord]
  | inf s => cases s <;> simp [F32.ord] <;> omega
  | fin s k h => have := F32.fin_lt_top k h; cases s <;> simp [F32.ord] <;> omega

theorem not_lt_pinf {x : F32} (h : ¬ x.lt (.inf false) = true) : InfNaN false x := by
  cases x with
  | nan => exact .inr rfl
  | inf s =>
    cases s
    · exact .inl rfl
    · exact absurd (by decide +kernel) h
  | fin s k hk =>
    refine absurd (F32.lt_iff'.2 ⟨rfl, rfl, ?_⟩) h
    have := F32.fin_lt_top k hk
    cases s <;> simp [F32.ord] <;> omega

theorem not_ninf_lt {x : F32} (h : ¬ (F32.inf true).lt x = true) : InfNaN true x := by
  cases x with
  | nan => exact .inr rfl
  | inf s =>
    cases s
    · exact absurd (by decide +kernel) h
    · exact .inl rfl
  | fin s k hk =>
    refine absurd (F32.lt_iff'.2 ⟨rfl, rfl, ?_⟩) h
    have := F32.fin_lt_top k hk
    cases s <;> simp [F32.ord] <;> omega

theorem pinf_not_lt (x : F32) : (F32.inf false).lt x = false := by
  rw [← Bool.not_eq_true]; intro h
  have := (F32.lt_iff'.1 h).2.2
  have := (ord_bounds x).2
  simp only [F32.ord, Bool.false_eq_true, if_false] at *
  omega

theorem not_lt_ninf (x : F32) : x.lt (F32.inf true) = false := by
  rw [← Bool.not_eq_true]; intro h
  have := (F32.lt_iff'.1 h).2.2
  have := (ord_bounds x).1
  simp only [F32.ord, if_true] at *
  omega

theorem nan_not_lt (x : F32) : F32.nan.lt x = false ∧ x.lt .nan = false := by
  simp [F32.lt, F32.isNaN]

/-- An infinite operand in front. -/
theorem vmax_left (b : F32) : InfNaN false (F32.vmax (.inf false) b) := by
  unfold F32.vmax
  split
  · exact .inl rfl
  · rename_i h; exact not_lt_pinf h
theorem vmin_left (b : F32) : InfNaN true (F32.vmin (.inf true) b) := by
  unfold F32.vmin
  split
  · exact .inl rfl
  · rename_i h; exact not_ninf_lt h
/-- An infinite or NaN operand behind stays. -/
theorem vmax_right {b : F32} (h : InfNaN false b) (a : F32) : F32.vmax a b = b := by
  unfold F32.vmax
  rcases h with rfl | rfl
  · rw [if_neg (by rw [pinf_not_lt]; simp)]
  · rw [if_neg (by simp [F32.lt, F32.isNaN])]
theorem vmin_right {b : F32} (h : InfNaN true b) (a : F32) : F32.vmin a b = b := by
  unfold F32.vmin
  rcases h with rfl | rfl
  · rw [if_neg (by rw [not_lt_ninf]; simp)]
  · rw [if_neg (by simp [F32.lt, F32.isNaN])]

theorem miss_of_near {n f t : F32} (h : InfNaN false n) : (n.lt f && n.lt t) = false := by
  rcases h with rfl | rfl
  · rw [pinf_not_lt]; rfl
  · simp [F32.lt, F32.isNaN]
theorem miss_of_far {n f t : F32} (h : InfNaN true f) : (n.lt f && n.lt t) = false := by
  rcases h with rfl | rfl
  · rw [not_lt_ninf]; rfl
  · simp [F32.lt, F32.isNaN]

/-- Proof device: the two packet tests as functions of the three axes. -/
def near1 (x y z : F32 × F32) : F32 := F32.vmax x.1 (F32.vmax y.1 z.1)
def far1 (x y z : F32 × F32) : F32 := F32.vmin x.2 (F32.vmin y.2 z.2)
def near2 (x y z : F32 × F32) : F32 := F32.vmax (F32.vmax x.1 y.1) z.1
def far2 (x y z : F32 × F32) : F32 := F32.vmin (F32.vmin x.2 y.2) z.2

theorem test1_dead {x y z : F32 × F32} (t : F32) (h : (∃ s, x = (.inf s, .inf s)) ∨ (∃ s, y = (.inf s, .inf s)) ∨ ∃ s, z = (.inf s, .inf s)) :
    ((near1 x y z).lt (far1 x y z) && (near1 x y z).lt t) = false := by
  have key : InfNaN false (near1 x y z) ∨ InfNaN true (far1 x y z) := by
    unfold near1 far1
    rcases h with ⟨s, rfl⟩ | ⟨s, rfl⟩ | ⟨s, rfl⟩ <;> cases s
    · exact .inl (vmax_left _)
    · exact .inr (vmin_left _)
    · exact .inl (by rw [vmax_right (vmax_left _)]; exact vmax_left _)
    · exact .inr (by rw [vmin_right (vmin_left _)]; exact vmin_left _)
    · exact .inl (by rw [vmax_right (b := .inf false) (.inl rfl), vmax_right (.inl rfl)]; exact .inl rfl)
    · exact .inr (by rw [vmin_right (b := .inf true) (.inl rfl), vmin_right (.inl rfl)]; exact .inl rfl)
  rcases key with k | k
  · exact miss_of_near k
  · exact miss_of_far k

theorem test2_dead {x y z : F32 × F32} (t : F32)
    (h : ((∃ s, x = (.inf s, .inf s)) ∧ y.1 ≠ .nan ∧ y.2 ≠ .nan) ∨ (∃ s, y = (.inf s, .inf s)) ∨ ∃ s, z = (.inf s, .inf s)) :
    ((near2 x y z).lt (far2 x y z) && (near2 x y z).lt t) = false := by
  have key : InfNaN false (near2 x y z) ∨ InfNaN true (far2 x y z) := by
    unfold near2 far2
    rcases h with ⟨⟨s, rfl⟩, h1, h2⟩ | ⟨s, rfl⟩ | ⟨s, rfl⟩ <;> cases s
    · left
      have : F32.vmax (.inf false) y.1 = .inf false := by
        have := vmax_left y.1
        rcases this with h | h
        · exact h
        · unfold F32.vmax at h
          split at h
          · cases h
          · exact absurd h h1
      rw [this]; exact vmax_left _
    · right
      have : F32.vmin (.inf true) y.2 = .inf true := by
        have := vmin_left y.2
        rcases this with h | h
        · exact h
        · unfold F32.vmin at h
          split at h
          · cases h
          · exact absurd h h2
      rw [this]; exact vmin_left _
    · left; rw [vmax_right (b := .inf false) (.inl rfl)]; exact vmax_left _
    · right; rw [vmin_right (b := .inf true) (.inl rfl)]; exact vmin_left _
    · left; rw [vmax_right (b := .inf false) (.inl rfl)]; exact .inl rfl
    · right; rw [vmin_right (b := .inf true) (.inl rfl)]; exact .inl rfl
  rcases key with k | k
  · exact miss_of_near k
  · exact miss_of_far k

theorem AxisEq.nan {a b : F32 × F32} (h : AxisEq a b) : (a.1 = .nan ↔ b.1 = .nan) ∧ (a.2 = .nan ↔ b.2 = .nan) := by
  have sim : ∀ {x y : F32}, F32.Sim x y → (x = .nan ↔ y = .nan) := by
    intro x y h
    rcases h.cases with rfl | ⟨s, s', hk, rfl, rfl⟩
    · rfl
    · simp
  rcases h with ⟨h1, h2⟩ | ⟨⟨s, rfl⟩, ⟨s', rfl⟩⟩
  · exact ⟨sim h1, sim h2⟩
  · simp

/-- C37 for packets holds without exception: two packets whose origins, directions and `t` in lane `i` are numerically
equal (`0.0 == -0.0`) agree in that lane, in `Aabb::intersect4` and in the packet test of quad nodes, on every box, NaN
and infinities in the box included. -/
theorem C37_equal_packets {p q : RayPacket4 F32} (hp : p.WellFormed) (hq : q.WellFormed) {i : Fin 4}
    (ho : (p.originOf i).NumEq (q.originOf i)) (hd : (p.dirOf i).NumEq (q.dirOf i))
    (ht : (p.t.get i <=. q.t.get i) = true ∧ (q.t.get i <=. p.t.get i) = true) (a : Aabb F32) :
    a.mask4 p i = a.mask4 q i ∧ quadTest4 a p i = quadTest4 a q i := by
  have st := F32.Sim.of_le ht.1 ht.2
  obtain ⟨x, hx⟩ : ∃ x, x = axisPair a.min.x a.max.x (p.originX.get i) (p.invDirectionX.get i) := ⟨_, rfl⟩
  obtain ⟨y, hy⟩ : ∃ x, x = axisPair a.min.y a.max.y (p.originY.get i) (p.invDirectionY.get i) := ⟨_, rfl⟩
  obtain ⟨z, hz⟩ : ∃ x, x = axisPair a.min.z a.max.z (p.originZ.get i) (p.invDirectionZ.get i) := ⟨_, rfl⟩
  obtain ⟨x', hx'⟩ : ∃ x, x = axisPair a.min.x a.max.x (q.originX.get i) (q.invDirectionX.get i) := ⟨_, rfl⟩
  obtain ⟨y', hy'⟩ : ∃ x, x = axisPair a.min.y a.max.y (q.originY.get i) (q.invDirectionY.get i) := ⟨_, rfl⟩
  obtain ⟨z', hz'⟩ : ∃ x, x = axisPair a.min.z a.max.z (q.originZ.get i) (q.invDirectionZ.get i) := ⟨_, rfl⟩
  have ix : p.invDirectionX.get i = F32.div one (p.directionX.get i) := congrArg Vec3.x (hp i)
  have iy : p.invDirectionY.get i = F32.div one (p.directionY.get i) := congrArg Vec3.y (hp i)
  have iz : p.invDirectionZ.get i = F32.div one (p.directionZ.get i) := congrArg Vec3.z (hp i)
  have jx : q.invDirectionX.get i = F32.div one (q.directionX.get i) := congrArg Vec3.x (hq i)
  have jy : q.invDirectionY.get i = F32.div one (q.directionY.get i) := congrArg Vec3.y (hq i)
  have jz : q.invDirectionZ.get i = F32.div one (q.directionZ.get i) := congrArg Vec3.z (hq i)
  have ex : AxisEq x x' := by
    rw [hx, hx', ix, jx]; exact axis_eq (F32.Sim.of_le ho.1.1 ho.2.1) (F32.Sim.of_le hd.1.1 hd.2.1)
  have ey : AxisEq y y' := by
    rw [hy, hy', iy, jy]; exact axis_eq (F32.Sim.of_le ho.1.2.1 ho.2.2.1) (F32.Sim.of_le hd.1.2.1 hd.2.2.1)
  have ez : AxisEq z z' := by
    rw [hz, hz', iz, jz]; exact axis_eq (F32.Sim.of_le ho.1.2.2 ho.2.2.2) (F32.Sim.of_le hd.1.2.2 hd.2.2.2)
  have ny : y.1 = .nan ↔ y.2 = .nan := by rw [hy]; exact axis_nan _ _ _ _
  have f1 : ∀ (x y z : F32 × F32) (t : F32),
      ((zero : F32) <. far1 x y z && (near1 x y z <. far1 x y z) && (near1 x y z <. t)) =
      ((zero : F32) <. far1 x y z && ((near1 x y z).lt (far1 x y z) && (near1 x y z).lt t)) := fun _ _ _ _ => Bool.and_assoc _ _ _
  have m1 : a.mask4 p i = ((zero : F32) <. far1 x y z && ((near1 x y z).lt (far1 x y z) && (near1 x y z).lt (p.t.get i))) := by
    rw [← f1, hx, hy, hz]; rfl
  have m2 : a.mask4 q i = ((zero : F32) <. far1 x' y' z' && ((near1 x' y' z').lt (far1 x' y' z') && (near1 x' y' z').lt (q.t.get i))) := by
    rw [← f1, hx', hy', hz']; rfl
  have n1 : quadTest4 a p i = ((near2 x y z).lt (far2 x y z) && (near2 x y z).lt (p.t.get i)) := by rw [hx, hy, hz]; rfl
  have n2 : quadTest4 a q i = ((near2 x' y' z').lt (far2 x' y' z') && (near2 x' y' z').lt (q.t.get i)) := by
    rw [hx', hy', hz']; rfl
  rw [m1, m2, n1, n2]
  clear m1 m2 n1 n2 hx hy hz hx' hy' hz'
  have nny := ey.nan
  rcases ez with ⟨z1, z2⟩ | ⟨dz, dz'⟩
  swap
  · rw [test1_dead _ (.inr (.inr dz)), test1_dead _ (.inr (.inr dz')), test2_dead _ (.inr (.inr dz)), test2_dead _ (.inr (.inr dz'))]
    simp
  rcases ey with ⟨y1, y2⟩ | ⟨dy, dy'⟩
  swap
  · rw [test1_dead _ (.inr (.inl dy)), test1_dead _ (.inr (.inl dy')), test2_dead _ (.inr (.inl dy)), test2_dead _ (.inr (.inl dy'))]
    simp
  rcases ex with ⟨x1, x2⟩ | ⟨dx, dx'⟩
  · have a1 : F32.Sim (near1 x y z) (near1 x' y' z') := x1.vmax (y1.vmax z1)
    have a2 : F32.Sim (far1 x y z) (far1 x' y' z') := x2.vmin (y2.vmin z2)
    have b1 : F32.Sim (near2 x y z) (near2 x' y' z') := (x1.vmax y1).vmax z1
    have b2 : F32.Sim (far2 x y z) (far2 x' y' z') := (x2.vmin y2).vmin z2
    have c : ((zero : F32) <. far1 x y z) = ((zero : F32) <. far1 x' y' z') := (F32.Sim.refl _).lt a2
    rw [c, a1.lt a2, a1.lt st, b1.lt b2, b1.lt st]
    exact ⟨rfl, rfl⟩
  · refine ⟨by rw [test1_dead _ (.inl dx), test1_dead _ (.inl dx')]; simp, ?_⟩
    by_cases hn : y.1 = .nan
    · -- the NaN of the second axis hides the first axis in both
      have h2 := ny.1 hn
      have h3 := nny.1.1 hn
      have h4 := nny.2.1 h2
      have drop1 : ∀ c z : F32, F32.vmax (F32.vmax c .nan) z = z := by
        intro c z; simp [F32.vmax, F32.lt, F32.isNaN]
      have drop2 : ∀ c z : F32, F32.vmin (F32.vmin c .nan) z = z := by
        intro c z; simp [F32.vmin, F32.lt, F32.isNaN]
      unfold near2 far2
      rw [hn, h2, h3, h4, drop1, drop2, drop1, drop2, z1.lt z2, z1.lt st]
    · have h2 : y.2 ≠ .nan := fun h => hn (ny.2 h)
      have h3 : y'.1 ≠ .nan := fun h => hn (nny.1.2 h)
      have h4 : y'.2 ≠ .nan := fun h => h2 (nny.2.2 h)
      rw [test2_dead _ (.inl ⟨dx, hn, h2⟩), test2_dead _ (.inl ⟨dx', h3, h4⟩)]

/-- Two numerically equal rays, nearly without a direction: the x component is `0.0` in one and `-0.0` in the other. -/
def tinyRay (zx : F32) : Ray F32 := Ray.new ⟨lit 0 0, lit 0 0, lit 0 0⟩ ⟨zx, lit 1 (-40), lit 1 (-40)⟩
/-- A box beside these rays. -/
def sideBox : Aabb F32 := ofPoints2 ⟨lit 1 0, lit (-1) 0, lit (-1) 0⟩ ⟨lit 2 0, lit 1 0, lit 1 0⟩

/-- C37 is false for the single-ray test of quad nodes too: with `-0.0` in place of `0.0` in the direction a box beside the
ray is hit. -/
theorem C37_quad_negative_zero :
    ((lit 0 0 : F32) <=. neg (lit 0 0)) = true ∧ (neg (lit 0 0 : F32) <=. lit 0 0) = true ∧
    quadTest sideBox (tinyRay (lit 0 0)) = false ∧ quadTest sideBox (tinyRay (neg (lit 0 0))) = true := by
  decide +kernel

/-- Non-vacuity: packets that differ in the signs of zeros of origin and direction; the box is hit. -/
example : let p := RayPacket4.new (F := F32) (fun _ => ⟨lit 0 0, lit 1 0, lit 0 0, lit 0 0⟩) (fun _ => ⟨lit 1 0, lit 0 0, lit 1 0, lit 0 0⟩)
    let q := RayPacket4.new (F := F32) (fun _ => ⟨neg (lit 0 0), lit 1 0, lit 0 0, lit 0 0⟩) (fun _ => ⟨lit 1 0, neg (lit 0 0), lit 1 0, lit 0 0⟩)
    p.WellFormed ∧ q.WellFormed ∧ (p.originOf 0).NumEq (q.originOf 0) ∧ (p.dirOf 0).NumEq (q.dirOf 0) ∧
    p.originOf 0 ≠ q.originOf 0 ∧ p.dirOf 0 ≠ q.dirOf 0 ∧
    (ofPoints2 ⟨lit 1 0, lit 0 0, lit 1 0⟩ ⟨lit 2 0, lit 2 0, lit 2 0⟩ : Aabb F32).mask4 p 0 = true := by
  unfold Vec3.NumEq Vec3.Le RayPacket4.WellFormed; decide +kernel

end Rtbvh
