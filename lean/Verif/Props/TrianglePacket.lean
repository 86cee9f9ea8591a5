import Verif.Props.Triangle
/- Properties C40 (packet triangle test) and C41 (triangle split). -/
namespace Rtbvh
open FloatOps

section
variable {F : Type} [FloatOps F]

theorem ite4 {α : Type} (A B C D : Bool) (x y : α) :
    (if A then y else if !B then y else if C then y else if D then x else y) = if !A && B && !C && D then x else y := by
  cases A <;> cases B <;> cases C <;> cases D <;> rfl

/-- The single-ray test in terms of the four numbers. -/
theorem intersect_mt (tr : Triangle F) (ray : Ray F) :
    tr.intersect ray =
      let m := tr.mt ray.origin ray.direction
      if !(m.a >. lit (-1) (-5) && m.a <. lit 1 (-5)) && (zero <=. m.u && m.u <=. one) &&
          !(m.v <. zero || (m.u +. m.v) >. one) && (m.t >. ray.tMin && m.t <. ray.t) then ({ ray with t := m.t }, true)
      else (ray, false) := by
  exact ite4 _ _ _ _ _ _

/-- The packet test in terms of the four numbers of each lane: the condition for a hit in lane `i`. -/
def hit4 (m : Mt F) (tMin t : F) : Bool :=
  (m.a <=. neg (lit 1 (-6)) || m.a >=. lit 1 (-6)) && (m.u >=. zero && m.u <=. one) &&
    (m.v >=. zero && (m.u +. m.v) <=. one) && (m.t >=. tMin && m.t <. t)

/-- The lanes' `t` after the packet test: the hit parameter in the lanes that hit. -/
def t4 (tr : Triangle F) (p : RayPacket4 F) (tm : Vec4 F) : Vec4 F :=
  Vec4.ofFn fun i =>
    if hit4 (tr.mt (p.originOf i) (p.dirOf i)) (tm.get i) (p.t.get i) then (tr.mt (p.originOf i) (p.dirOf i)).t
    else p.t.get i

theorem any_false {m : Vec4 Bool} : (!m.any) = true ↔ ∀ i, m.get i = false := by
  rw [Bool.not_eq_true', ← Bool.not_eq_true, Vec4.any_iff]
  simp

variable [LawfulFloat F]

theorem intersect4_mt (tr : Triangle F) (p : RayPacket4 F) (tm : Vec4 F) :
    (∀ i, laneHit (tr.intersect4 p tm).2 i = hit4 (tr.mt (p.originOf i) (p.dirOf i)) (tm.get i) (p.t.get i)) ∧
    (tr.intersect4 p tm).1 = { p with t := t4 tr p tm } ∧
    ((tr.intersect4 p tm).2 = none ↔ ∀ i, laneHit (tr.intersect4 p tm).2 i = false) := by
  have hmc := LawfulFloat.mul_comm (F := F)
  have same : (p.t = Vec4.ofFn fun i => p.t.get i) := Vec4.ext_get (by simp)
  have e := fun i : Fin 4 => (rfl : tr.mt (p.originOf i) (p.dirOf i) = tr.mt (p.originOf i) (p.dirOf i))
  have ea : ∀ i, (tr.v1.x -. tr.v0.x) *. ((p.directionY.get i *. (tr.v2.z -. tr.v0.z)) -. (p.directionZ.get i *. (tr.v2.y -. tr.v0.y)))
      +. (tr.v1.y -. tr.v0.y) *. ((p.directionZ.get i *. (tr.v2.x -. tr.v0.x)) -. (p.directionX.get i *. (tr.v2.z -. tr.v0.z)))
      +. (tr.v1.z -. tr.v0.z) *. ((p.directionX.get i *. (tr.v2.y -. tr.v0.y)) -. (p.directionY.get i *. (tr.v2.x -. tr.v0.x)))
      = (tr.mt (p.originOf i) (p.dirOf i)).a := by
    intro i
    simp only [Triangle.mt, RayPacket4.originOf, RayPacket4.dirOf, Vec3.sub, Vec3.map2, Vec3.cross, Vec3.dot]
    rw [hmc (p.directionZ.get i) (tr.v2.y -. tr.v0.y), hmc (p.directionX.get i) (tr.v2.z -. tr.v0.z),
      hmc (p.directionY.get i) (tr.v2.x -. tr.v0.x)]
  have eu : ∀ i, one /. (tr.mt (p.originOf i) (p.dirOf i)).a *.
      ((p.originX.get i -. tr.v0.x) *. ((p.directionY.get i *. (tr.v2.z -. tr.v0.z)) -. (p.directionZ.get i *. (tr.v2.y -. tr.v0.y)))
      +. (p.originY.get i -. tr.v0.y) *. ((p.directionZ.get i *. (tr.v2.x -. tr.v0.x)) -. (p.directionX.get i *. (tr.v2.z -. tr.v0.z)))
      +. (p.originZ.get i -. tr.v0.z) *. ((p.directionX.get i *. (tr.v2.y -. tr.v0.y)) -. (p.directionY.get i *. (tr.v2.x -. tr.v0.x))))
      = (tr.mt (p.originOf i) (p.dirOf i)).u := by
    intro i
    simp only [Triangle.mt, RayPacket4.originOf, RayPacket4.dirOf, Vec3.sub, Vec3.map2, Vec3.cross, Vec3.dot]
    rw [hmc (p.directionZ.get i) (tr.v2.y -. tr.v0.y), hmc (p.directionX.get i) (tr.v2.z -. tr.v0.z),
      hmc (p.directionY.get i) (tr.v2.x -. tr.v0.x)]
  have ev : ∀ i, one /. (tr.mt (p.originOf i) (p.dirOf i)).a *.
      (p.directionX.get i *. ((p.originY.get i -. tr.v0.y) *. (tr.v1.z -. tr.v0.z) -. (p.originZ.get i -. tr.v0.z) *. (tr.v1.y -. tr.v0.y))
      +. p.directionY.get i *. ((p.originZ.get i -. tr.v0.z) *. (tr.v1.x -. tr.v0.x) -. (p.originX.get i -. tr.v0.x) *. (tr.v1.z -. tr.v0.z))
      +. p.directionZ.get i *. ((p.originX.get i -. tr.v0.x) *. (tr.v1.y -. tr.v0.y) -. (p.originY.get i -. tr.v0.y) *. (tr.v1.x -. tr.v0.x)))
      = (tr.mt (p.originOf i) (p.dirOf i)).v := by
    intro i
    simp only [Triangle.mt, RayPacket4.originOf, RayPacket4.dirOf, Vec3.sub, Vec3.map2, Vec3.cross, Vec3.dot]
    rw [hmc (p.originZ.get i -. tr.v0.z) (tr.v1.y -. tr.v0.y), hmc (p.originX.get i -. tr.v0.x) (tr.v1.z -. tr.v0.z),
      hmc (p.originY.get i -. tr.v0.y) (tr.v1.x -. tr.v0.x)]
  have et : ∀ i, one /. (tr.mt (p.originOf i) (p.dirOf i)).a *.
      ((tr.v2.x -. tr.v0.x) *. ((p.originY.get i -. tr.v0.y) *. (tr.v1.z -. tr.v0.z) -. (p.originZ.get i -. tr.v0.z) *. (tr.v1.y -. tr.v0.y))
      +. (tr.v2.y -. tr.v0.y) *. ((p.originZ.get i -. tr.v0.z) *. (tr.v1.x -. tr.v0.x) -. (p.originX.get i -. tr.v0.x) *. (tr.v1.z -. tr.v0.z))
      +. (tr.v2.z -. tr.v0.z) *. ((p.originX.get i -. tr.v0.x) *. (tr.v1.y -. tr.v0.y) -. (p.originY.get i -. tr.v0.y) *. (tr.v1.x -. tr.v0.x)))
      = (tr.mt (p.originOf i) (p.dirOf i)).t := by
    intro i
    simp only [Triangle.mt, RayPacket4.originOf, RayPacket4.dirOf, Vec3.sub, Vec3.map2, Vec3.cross, Vec3.dot]
    rw [hmc (p.originZ.get i -. tr.v0.z) (tr.v1.y -. tr.v0.y), hmc (p.originX.get i -. tr.v0.x) (tr.v1.z -. tr.v0.z),
      hmc (p.originY.get i -. tr.v0.y) (tr.v1.x -. tr.v0.x)]
  have fin : ∀ r : RayPacket4 F × Option (Vec4 Bool),
      (r = (p, none) ∧ ∀ i, hit4 (tr.mt (p.originOf i) (p.dirOf i)) (tm.get i) (p.t.get i) = false) ∨
      (∃ m : Vec4 Bool, (∀ i, m.get i = hit4 (tr.mt (p.originOf i) (p.dirOf i)) (tm.get i) (p.t.get i)) ∧
        m.any = true ∧
        r = ({ p with t := Vec4.ofFn fun i => if m.get i then (tr.mt (p.originOf i) (p.dirOf i)).t else p.t.get i }, some m)) →
      (∀ i, laneHit r.2 i = hit4 (tr.mt (p.originOf i) (p.dirOf i)) (tm.get i) (p.t.get i)) ∧
      r.1 = { p with t := t4 tr p tm } ∧ (r.2 = none ↔ ∀ i, laneHit r.2 i = false) := by
    rintro r (⟨rfl, h⟩ | ⟨m, h, ha, rfl⟩)
    · refine ⟨fun i => by rw [h i]; rfl, ?_, ?_⟩
      · simp only [t4, h, Bool.false_eq_true, if_false, ← same]
      · simp [laneHit]
    · refine ⟨fun i => h i, ?_, ?_⟩
      · simp only [t4, h]
      · simp only [laneHit, reduceCtorEq, false_iff]
        obtain ⟨i, hi⟩ := (Vec4.any_iff m).1 ha
        intro hh; rw [hh i] at hi; cases hi
  apply fin
  unfold Triangle.intersect4
  simp only [Vec4.get_ofFn, Vec4.get_map, ea, eu, ev, et]
  have anyt : ∀ m : Vec4 Bool, ¬ ((!m.any) = true) → m.any = true := by intro m h; simpa using h
  split
  · rename_i h
    rw [any_false] at h
    simp only [Vec4.get_map, Vec4.get_ofFn] at h
    exact .inl ⟨rfl, fun i => by simp only [hit4, h i, Bool.false_and]⟩
  · split
    · rename_i h
      rw [any_false] at h
      simp only [Vec4.get_map, Vec4.get_ofFn] at h
      exact .inl ⟨rfl, fun i => by simp only [hit4, h i, Bool.false_and]⟩
    · split
      · rename_i h
        rw [any_false] at h
        simp only [Vec4.get_map, Vec4.get_ofFn] at h
        exact .inl ⟨rfl, fun i => by simp only [hit4, h i, Bool.false_and]⟩
      · split
        · rename_i h
          rw [any_false] at h
          simp only [Vec4.get_map, Vec4.get_ofFn] at h
          exact .inl ⟨rfl, fun i => by simp only [hit4, h i]⟩
        · rename_i h
          refine .inr ⟨_, ?_, anyt _ h, ?_⟩
          · intro i; simp only [Vec4.get_ofFn, hit4]
          · simp only [Vec4.get_ofFn]

/-- C40: the result in a lane depends only on what is in that lane. -/
theorem C40_lane_independent (tr : Triangle F) (p q : RayPacket4 F) (tm sm : Vec4 F) (i : Fin 4)
    (ho : p.originX.get i = q.originX.get i ∧ p.originY.get i = q.originY.get i ∧ p.originZ.get i = q.originZ.get i)
    (hd : p.directionX.get i = q.directionX.get i ∧ p.directionY.get i = q.directionY.get i ∧
      p.directionZ.get i = q.directionZ.get i)
    (ht : p.t.get i = q.t.get i) (hm : tm.get i = sm.get i) :
    laneHit (tr.intersect4 p tm).2 i = laneHit (tr.intersect4 q sm).2 i ∧
    (tr.intersect4 p tm).1.t.get i = (tr.intersect4 q sm).1.t.get i := by
  have e1 : p.originOf i = q.originOf i := by simp [RayPacket4.originOf, ho]
  have e2 : p.dirOf i = q.dirOf i := by simp [RayPacket4.dirOf, hd]
  rw [(intersect4_mt tr p tm).1, (intersect4_mt tr q sm).1, (intersect4_mt tr p tm).2.1, (intersect4_mt tr q sm).2.1]
  simp only [t4, Vec4.get_ofFn, e1, e2, ht, hm, and_self]

/-- C40: `None` is returned exactly if no lane hits; only the lanes' `t` change; in a lane that hits the new `t` lies in
`[t_min, old t)`, in a lane that does not hit it is unchanged. -/
theorem C40_packet_protocol (tr : Triangle F) (p : RayPacket4 F) (tm : Vec4 F) :
    ((tr.intersect4 p tm).2 = none ↔ ∀ i, laneHit (tr.intersect4 p tm).2 i = false) ∧
    (tr.intersect4 p tm).1 = { p with t := (tr.intersect4 p tm).1.t } ∧
    (∀ i, laneHit (tr.intersect4 p tm).2 i = true →
      (tm.get i <=. (tr.intersect4 p tm).1.t.get i) = true ∧ ((tr.intersect4 p tm).1.t.get i <. p.t.get i) = true) ∧
    (∀ i, laneHit (tr.intersect4 p tm).2 i = false → (tr.intersect4 p tm).1.t.get i = p.t.get i) := by
  obtain ⟨h1, h2, h3⟩ := intersect4_mt tr p tm
  refine ⟨h3, by rw [h2], fun i h => ?_, fun i h => ?_⟩
  · rw [h1] at h
    rw [h2]
    simp only [t4, Vec4.get_ofFn, h, if_true]
    simp only [hit4, Bool.and_eq_true] at h
    exact h.2
  · rw [h1] at h
    rw [h2]
    simp only [t4, Vec4.get_ofFn, h, Bool.false_eq_true, if_false]

/-- C40, the part that holds (rounded arithmetic): a lane of the packet test and the single-ray test give the same
answer and the same `t`, provided the determinant is clearly zero or clearly non-zero (not in the gap between the two
thresholds 1e-6 and 1e-5), the barycentric numbers are not NaN and the hit is not exactly at `t_min`. -/
theorem agree_lane (tr : Triangle F) (p : RayPacket4 F) (tm : Vec4 F) (i : Fin 4)
    (hgap : let a := (tr.mt (p.originOf i) (p.dirOf i)).a
      (a >. lit (-1) (-5) && a <. lit 1 (-5)) = !(a <=. neg (lit 1 (-6)) || a >=. lit 1 (-6)))
    (hv : Num (tr.mt (p.originOf i) (p.dirOf i)).v)
    (huv : Num ((tr.mt (p.originOf i) (p.dirOf i)).u +. (tr.mt (p.originOf i) (p.dirOf i)).v))
    (hz : Num (zero : F)) (ho : Num (one : F))
    (ht : ((tr.mt (p.originOf i) (p.dirOf i)).t <=. tm.get i) = false ∨
      (tm.get i <=. (tr.mt (p.originOf i) (p.dirOf i)).t) = false) :
    laneHit (tr.intersect4 p tm).2 i = (tr.intersect { p.ray i with tMin := tm.get i }).2 ∧
    (tr.intersect4 p tm).1.t.get i = (tr.intersect { p.ray i with tMin := tm.get i }).1.t := by
  obtain ⟨h1, h2, _⟩ := intersect4_mt tr p tm
  rw [h1, h2, intersect_mt]
  simp only [t4, Vec4.get_ofFn]
  have e : tr.mt ({ p.ray i with tMin := tm.get i } : Ray F).origin ({ p.ray i with tMin := tm.get i } : Ray F).direction
    = tr.mt (p.originOf i) (p.dirOf i) := rfl
  rw [e]
  generalize tr.mt (p.originOf i) (p.dirOf i) = m at *
  have nl : ∀ x y : F, Num x → Num y → (x <. y) = !(y <=. x) := by
    intro x y hx hy
    cases h : (y <=. x) with
    | true =>
      cases h' : (x <. y) with
      | false => rfl
      | true => have := (LawfulFloat.lt_iff.1 h').2.2; rw [h] at this; cases this
    | false => exact LawfulFloat.lt_iff.2 ⟨hx, hy, h⟩
  have ev : (m.v <. zero) = !(zero <=. m.v) := nl _ _ hv hz
  have euv : (one <. (m.u +. m.v)) = !((m.u +. m.v) <=. one) := nl _ _ ho huv
  have et : (tm.get i <. m.t) = (tm.get i <=. m.t) := by
    rcases ht with ht | ht
    · cases h : (tm.get i <=. m.t) with
      | true =>
        obtain ⟨n1, n2⟩ := LawfulFloat.le_num h
        exact LawfulFloat.lt_iff.2 ⟨n1, n2, ht⟩
      | false =>
        cases h' : (tm.get i <. m.t) with
        | false => rfl
        | true =>
          obtain ⟨n1, n2, h3⟩ := LawfulFloat.lt_iff.1 h'
          rcases LawfulFloat.le_total n1 n2 with h4 | h4
          · rw [h] at h4; cases h4
          · rw [h4] at h3; cases h3
    · rw [ht]
      cases h' : (tm.get i <. m.t) with
      | false => rfl
      | true =>
        obtain ⟨n1, n2, h3⟩ := LawfulFloat.lt_iff.1 h'
        rcases LawfulFloat.le_total n1 n2 with h4 | h4
        · rw [ht] at h4; cases h4
        · rw [h4] at h3; cases h3
  have ec : (!(m.a >. lit (-1) (-5) && m.a <. lit 1 (-5)) && (zero <=. m.u && m.u <=. one) &&
      !(m.v <. zero || (m.u +. m.v) >. one) && (m.t >. tm.get i && m.t <. (p.ray i).t)) = hit4 m (tm.get i) (p.t.get i) := by
    rw [hgap]
    show (!!_ && _ && !(_ || (one <. (m.u +. m.v))) && ((tm.get i <. m.t) && _)) = _
    rw [ev, euv, et]
    simp only [hit4, Bool.not_not, Bool.not_or, Bool.not_and]
    rfl
  simp only [ec]
  cases hit4 m (tm.get i) (p.t.get i) <;> exact ⟨rfl, rfl⟩
end

instance (x : F32) : Decidable (Num x) := inferInstanceAs (Decidable (FloatOps.isNaN x = false))

/-- C40 in exact arithmetic: lane `i` of the packet test hits exactly if the determinant is not in `(-1e-6, 1e-6)` and
the lane's ray meets the closed triangle at a parameter in `[t_min, t)`; that parameter is the lane's new `t`. -/
theorem C40_packet_exact (tr : Triangle Rat) (p : RayPacket4 Rat) (tm : Vec4 Rat) (i : Fin 4) :
    (laneHit (tr.intersect4 p tm).2 i = true ↔
      (tr.det (p.dirOf i) ≤ -(1 / 1000000) ∨ 1 / 1000000 ≤ tr.det (p.dirOf i)) ∧
      ∃ t, tm.get i ≤ t ∧ t < p.t.get i ∧ tr.Has ((p.ray i).at t)) ∧
    (laneHit (tr.intersect4 p tm).2 i = true → tr.Has ((p.ray i).at ((tr.intersect4 p tm).1.t.get i)) ∧
      ∀ t, tr.Has ((p.ray i).at t) → t = (tr.intersect4 p tm).1.t.get i) := by
  have hp6 : (lit 1 (-6) : Rat) = 1 / 1000000 := by
    show ((1 : Int) : Rat) * ratPow10 (-6) = _
    simp [ratPow10]
  have hn : ∀ x : Rat, neg x = -x := fun _ => rfl
  have h0 : (zero : Rat) = 0 := by show ((0 : Int) : Rat) * ratPow10 0 = _; simp
  have h1 : (one : Rat) = 1 := by show ((1 : Int) : Rat) * ratPow10 0 = _; simp [ratPow10]
  obtain ⟨hh, ht, _⟩ := intersect4_mt tr p tm
  have ea : (tr.mt (p.originOf i) (p.dirOf i)).a = tr.det (p.dirOf i) := det_eq tr (p.dirOf i)
  have heq : laneHit (tr.intersect4 p tm).2 i = true ↔
      (tr.det (p.dirOf i) ≤ -(1 / 1000000) ∨ 1 / 1000000 ≤ tr.det (p.dirOf i)) ∧
      0 ≤ (tr.mt (p.originOf i) (p.dirOf i)).u ∧ 0 ≤ (tr.mt (p.originOf i) (p.dirOf i)).v ∧
      (tr.mt (p.originOf i) (p.dirOf i)).u + (tr.mt (p.originOf i) (p.dirOf i)).v ≤ 1 ∧
      tm.get i ≤ (tr.mt (p.originOf i) (p.dirOf i)).t ∧ (tr.mt (p.originOf i) (p.dirOf i)).t < p.t.get i := by
    rw [hh, ← ea]
    generalize tr.mt (p.originOf i) (p.dirOf i) = m
    have hge : ∀ x y : Rat, (x >=. y) = true ↔ y ≤ x := fun x y => rat_le
    have ha : (m.u +. m.v) = m.u + m.v := rfl
    simp only [hit4, Bool.and_eq_true, Bool.or_eq_true, hp6, hn, h0, h1, hge, rat_le, rat_lt, ha]
    constructor
    · rintro ⟨⟨⟨a, b1, b2⟩, c1, c2⟩, d1, d2⟩; exact ⟨a, b1, c1, c2, d1, d2⟩
    · rintro ⟨a, b1, c1, c2, d1, d2⟩; exact ⟨⟨⟨a, b1, by linarith⟩, c1, c2⟩, d1, d2⟩
  have hcr : (tr.det (p.dirOf i) ≤ -(1 / 1000000) ∨ 1 / 1000000 ≤ tr.det (p.dirOf i)) → ∀ u v t,
      (p.ray i).at t = tr.point u v ↔ u = (tr.mt (p.originOf i) (p.dirOf i)).u ∧
        v = (tr.mt (p.originOf i) (p.dirOf i)).v ∧ t = (tr.mt (p.originOf i) (p.dirOf i)).t := by
    intro hout u v t
    have hne : tr.det (p.dirOf i) ≠ 0 := by
      rcases hout with h | h
      · intro e; rw [e] at h; norm_num at h
      · intro e; rw [e] at h; norm_num at h
    have := cramer tr (p.ray i) hne u v t
    rw [this, ← h1]
    have ed : tr.det (p.ray i).direction = (tr.v1.sub tr.v0).dot ((p.dirOf i).cross (tr.v2.sub tr.v0)) :=
      (det_eq tr (p.dirOf i)).symm
    rw [ed]
    rfl
  have hnew : laneHit (tr.intersect4 p tm).2 i = true →
      (tr.intersect4 p tm).1.t.get i = (tr.mt (p.originOf i) (p.dirOf i)).t := by
    intro h
    rw [hh] at h
    rw [ht]
    simp only [t4, Vec4.get_ofFn, h, if_true]
  refine ⟨⟨fun h => ?_, ?_⟩, fun h => ?_⟩
  · obtain ⟨a, b, c, d, e, f⟩ := heq.1 h
    exact ⟨a, _, e, f, _, _, b, c, d, (hcr a _ _ _).2 ⟨rfl, rfl, rfl⟩⟩
  · rintro ⟨a, t, e, f, u, v, b, c, d, hp⟩
    obtain ⟨rfl, rfl, rfl⟩ := (hcr a _ _ _).1 hp
    exact heq.2 ⟨a, b, c, d, e, f⟩
  · rw [hnew h]
    obtain ⟨a, b, c, d, e, f⟩ := heq.1 h
    refine ⟨⟨_, _, b, c, d, (hcr a _ _ _).2 ⟨rfl, rfl, rfl⟩⟩, ?_⟩
    rintro t ⟨u, v, _, _, _, hp⟩
    exact ((hcr a _ _ _).1 hp).2.2

/-- C40 for `f32`, the part that holds: a lane of the packet test gives the same answer and the same `t` as the
single-ray test on the lane's ray, provided the determinant is at least 1e-5 in absolute value or below 1e-6 (not
between the two thresholds), the barycentric numbers are not NaN, and the hit is not exactly at `t_min`. -/
theorem C40_agree_partial (tr : Triangle F32) (p : RayPacket4 F32) (tm : Vec4 F32) (i : Fin 4)
    (hgap : let a := (tr.mt (p.originOf i) (p.dirOf i)).a
      (a <=. lit (-1) (-5)) = true ∨ (lit 1 (-5) <=. a) = true ∨ ((lit (-1) (-6) <. a) = true ∧ (a <. lit 1 (-6)) = true))
    (hv : Num (tr.mt (p.originOf i) (p.dirOf i)).v)
    (huv : Num ((tr.mt (p.originOf i) (p.dirOf i)).u +. (tr.mt (p.originOf i) (p.dirOf i)).v))
    (ht : ((tr.mt (p.originOf i) (p.dirOf i)).t <=. tm.get i) = false ∨
      (tm.get i <=. (tr.mt (p.originOf i) (p.dirOf i)).t) = false) :
    laneHit (tr.intersect4 p tm).2 i = (tr.intersect { p.ray i with tMin := tm.get i }).2 ∧
    (tr.intersect4 p tm).1.t.get i = (tr.intersect { p.ray i with tMin := tm.get i }).1.t := by
  refine agree_lane tr p tm i ?_ hv huv (by decide +kernel) (by decide +kernel) ht
  simp only at hgap ⊢
  generalize (tr.mt (p.originOf i) (p.dirOf i)).a = a at hgap
  have k1 : ((lit (-1) (-5) : F32) <=. neg (lit 1 (-6))) = true := by decide +kernel
  have k2 : ((lit 1 (-6) : F32) <=. lit 1 (-5)) = true := by decide +kernel
  have k3 : (neg (lit 1 (-6)) : F32) = lit (-1) (-6) := by decide +kernel
  have k4 : ((lit (-1) (-5) : F32) <=. lit (-1) (-6)) = true := by decide +kernel
  have nlt : ∀ x y : F32, (x <=. y) = true → (y <. x) = false := by
    intro x y h
    cases h' : (y <. x) with
    | false => rfl
    | true => have := (LawfulFloat.lt_iff.1 h').2.2; rw [h] at this; cases this
  have nle : ∀ x y : F32, (x <. y) = true → (y <=. x) = false := fun x y h => (LawfulFloat.lt_iff.1 h).2.2
  have ltle : ∀ x y z : F32, (x <. y) = true → (y <=. z) = true → (x <. z) = true := by
    intro x y z h h'
    obtain ⟨n1, n2, h3⟩ := LawfulFloat.lt_iff.1 h
    refine LawfulFloat.lt_iff.2 ⟨n1, (LawfulFloat.le_num h').2, ?_⟩
    cases h4 : (z <=. x) with
    | false => rfl
    | true => rw [LawfulFloat.le_trans h' h4] at h3; cases h3
  have lelt : ∀ x y z : F32, (x <=. y) = true → (y <. z) = true → (x <. z) = true := by
    intro x y z h h'
    obtain ⟨n1, n2, h3⟩ := LawfulFloat.lt_iff.1 h'
    refine LawfulFloat.lt_iff.2 ⟨(LawfulFloat.le_num h).1, n2, ?_⟩
    cases h4 : (z <=. x) with
    | false => rfl
    | true => rw [LawfulFloat.le_trans h4 h] at h3; cases h3
  have g : ∀ x y : F32, (x >. y) = (y <. x) := fun _ _ => rfl
  have ge : ∀ x y : F32, (x >=. y) = (y <=. x) := fun _ _ => rfl
  rw [g, ge]
  rcases hgap with h | h | ⟨h, h'⟩
  · rw [nlt _ _ h, LawfulFloat.le_trans h k1]; rfl
  · rw [nlt _ _ h, LawfulFloat.le_trans k2 h, Bool.and_false, Bool.or_true]; rfl
  · rw [lelt _ _ _ k4 h, ltle _ _ _ h' k2, k3, nle _ _ h, nle _ _ h']; rfl

/-- A small triangle at height 1 and a packet of four vertical rays (all the same) that pass through its inside. -/
def smallTri : Triangle F32 :=
  let s : F32 := lit 1953125 (-9)
  ⟨⟨zero, zero, one⟩, ⟨s, zero, one⟩, ⟨zero, s, one⟩⟩
def smallPacket : RayPacket4 F32 :=
  let c : F32 := lit 48828125 (-11)
  RayPacket4.new (fun _ => ⟨c, c, zero, one⟩) (fun _ => ⟨zero, zero, one, zero⟩)

/-- C40 fails as stated (f32): every lane of the packet test reports a hit at distance 1, the single-ray test on the
same rays reports none (the thresholds for the determinant are 1e-6 and 1e-5). -/
theorem C40_thresholds_differ :
    (∀ i, laneHit (smallTri.intersect4 smallPacket (Vec4.splat (lit 1 (-4)))).2 i = true) ∧
    (smallTri.intersect4 smallPacket (Vec4.splat (lit 1 (-4)))).1.t = Vec4.splat one ∧
    ∀ i, (smallTri.intersect (smallPacket.ray i)).2 = false := by
  decide +kernel

/-- The same with a large triangle, hit exactly at `t_min`. -/
def bigTri : Triangle F32 := ⟨⟨zero, zero, one⟩, ⟨lit 4 0, zero, one⟩, ⟨zero, lit 4 0, one⟩⟩
def bigPacket : RayPacket4 F32 := RayPacket4.new (fun i => ⟨lit (i.val + 1) 0 , one, zero, one⟩) (fun _ => ⟨zero, zero, one, zero⟩)

/-- C40 fails also for a hit exactly at `t_min`: the packet test accepts it, the single-ray test does not. -/
theorem C40_t_min_differs :
    (∀ i : Fin 4, i ≠ 3 → laneHit (bigTri.intersect4 bigPacket (Vec4.splat one)).2 i = true) ∧
    ∀ i, (bigTri.intersect { bigPacket.ray i with tMin := one }).2 = false := by
  decide +kernel

/-- Non-vacuity of `C40_agree_partial`: all lanes of `bigPacket` meet its hypotheses; three lanes hit, one misses. -/
example : ∀ i : Fin 4,
    (lit 1 (-5) <=. (bigTri.mt (bigPacket.originOf i) (bigPacket.dirOf i)).a) = true ∨
      ((bigTri.mt (bigPacket.originOf i) (bigPacket.dirOf i)).a <=. lit (-1) (-5)) = true := by decide +kernel
example : ∀ i : Fin 4, Num (bigTri.mt (bigPacket.originOf i) (bigPacket.dirOf i)).v ∧
    Num ((bigTri.mt (bigPacket.originOf i) (bigPacket.dirOf i)).u +. (bigTri.mt (bigPacket.originOf i) (bigPacket.dirOf i)).v) ∧
    ((bigTri.mt (bigPacket.originOf i) (bigPacket.dirOf i)).t <=. (Vec4.splat (lit 1 (-4)) : Vec4 F32).get i) = false := by
  decide +kernel
example : (List.finRange 4).map (fun i => laneHit (bigTri.intersect4 bigPacket (Vec4.splat (lit 1 (-4)))).2 i) =
    [true, true, true, false] := by decide +kernel
/-- Non-vacuity for C38: a single ray that hits, and two triangles in sequence. -/
example : (bigTri.intersect (bigPacket.ray 0)).2 = true ∧ (bigTri.intersect (bigPacket.ray 3)).2 = false ∧
    (intersectAll [⟨⟨zero, zero, lit 2 0⟩, ⟨lit 4 0, zero, lit 2 0⟩, ⟨zero, lit 4 0, lit 2 0⟩⟩, bigTri] (bigPacket.ray 0)).t = one ∧
    Num (bigPacket.ray 0).t := by decide +kernel

end Rtbvh
