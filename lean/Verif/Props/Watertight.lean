import Verif.Proofs.Watertight
import Verif.Props.BuildQuery
/-
Properties C95 and C96: in single precision no ray, packet or `Mbvh` query culls a primitive whose box the ray meets in exact
arithmetic, as long as coordinates are at most 200 in size.
-/
namespace Rtbvh
open FloatOps LawfulFloat Aabb

section tests
variable {a : Aabb F32} {s : ℚ}

theorem zero_fin : (zero : F32).IsFin ∧ (zero : F32).val = 0 := by
  have e : (zero : F32) = .fin false 0 (by decide +kernel) := by decide +kernel
  rw [e]; exact ⟨⟨_, _, _, rfl⟩, by simp [F32.val]⟩

theorem Seen.quad {o d : Vec3 F32} (h : Seen a o d s) {p q : F32}
    (hp : p = vmax (vmin (((a.offsetBy (lit 1 (-4))).min.x -. o.x) *. (recip3 d).x)
        (((a.offsetBy (lit 1 (-4))).max.x -. o.x) *. (recip3 d).x))
      (vmax (vmin (((a.offsetBy (lit 1 (-4))).min.y -. o.y) *. (recip3 d).y)
        (((a.offsetBy (lit 1 (-4))).max.y -. o.y) *. (recip3 d).y))
        (vmin (((a.offsetBy (lit 1 (-4))).min.z -. o.z) *. (recip3 d).z)
          (((a.offsetBy (lit 1 (-4))).max.z -. o.z) *. (recip3 d).z))))
    (hq : q = vmin (vmax (((a.offsetBy (lit 1 (-4))).min.x -. o.x) *. (recip3 d).x)
        (((a.offsetBy (lit 1 (-4))).max.x -. o.x) *. (recip3 d).x))
      (vmin (vmax (((a.offsetBy (lit 1 (-4))).min.y -. o.y) *. (recip3 d).y)
        (((a.offsetBy (lit 1 (-4))).max.y -. o.y) *. (recip3 d).y))
        (vmax (((a.offsetBy (lit 1 (-4))).min.z -. o.z) *. (recip3 d).z)
          (((a.offsetBy (lit 1 (-4))).max.z -. o.z) *. (recip3 d).z)))) : p.Below s ∧ q.Above s := by
  subst hp hq
  exact ⟨h.x.mm.1.vmax (h.y.mm.1.vmax h.z.mm.1), h.x.mm.2.vmin (h.y.mm.2.vmin h.z.mm.2)⟩

theorem Seen.mask4 {pk : RayPacket4 F32} {i : Fin 4} (h : Seen a (pk.originOf i) (pk.dirOf i) s)
    (hw : pk.invOf i = recip3 (pk.dirOf i)) (h0 : 0 ≤ s) (ht : (pk.t.get i).Above s) :
    (a.offsetBy (lit 1 (-4))).mask4 pk i = true := by
  obtain ⟨h1, h2⟩ := h.quad (p := ((a.offsetBy (lit 1 (-4))).lane4 pk i).1) (q := ((a.offsetBy (lit 1 (-4))).lane4 pk i).2)
    (by rw [← hw]; rfl) (by rw [← hw]; rfl)
  have e1 : (zero <. ((a.offsetBy (lit 1 (-4))).lane4 pk i).2) = true :=
    h2.gt zero_fin.1 (by rw [zero_fin.2]; exact h0)
  have e2 : (((a.offsetBy (lit 1 (-4))).lane4 pk i).1 <. ((a.offsetBy (lit 1 (-4))).lane4 pk i).2) = true := h1.lt_above h2
  have e3 : (((a.offsetBy (lit 1 (-4))).lane4 pk i).1 <. pk.t.get i) = true := h1.lt_above ht
  unfold Aabb.mask4 gt
  simp only [e1, e2, e3, Bool.and_self]

theorem Seen.quadTest4 {pk : RayPacket4 F32} {i : Fin 4} (h : Seen a (pk.originOf i) (pk.dirOf i) s)
    (hw : pk.invOf i = recip3 (pk.dirOf i)) (ht : (pk.t.get i).Above s) :
    quadTest4 (a.offsetBy (lit 1 (-4))) pk i = true := by
  have h1 : (quadLane4 (a.offsetBy (lit 1 (-4))) pk i).1.Below s := by
    have : Seen a (pk.originOf i) (pk.dirOf i) s := h
    obtain ⟨_, _, _, x, y, z⟩ := this
    rw [← hw] at x y z
    exact (x.mm.1.vmax y.mm.1).vmax z.mm.1
  have h2 : (quadLane4 (a.offsetBy (lit 1 (-4))) pk i).2.Above s := by
    obtain ⟨_, _, _, x, y, z⟩ := h
    rw [← hw] at x y z
    exact (x.mm.2.vmin y.mm.2).vmin z.mm.2
  have e2 : ((quadLane4 (a.offsetBy (lit 1 (-4))) pk i).1 <. (quadLane4 (a.offsetBy (lit 1 (-4))) pk i).2) = true :=
    h1.lt_above h2
  have e3 : ((quadLane4 (a.offsetBy (lit 1 (-4))) pk i).1 <. pk.t.get i) = true := h1.lt_above ht
  unfold Rtbvh.quadTest4 gt
  simp only [e2, e3, Bool.and_self]

theorem Seen.quadTest {ray : Ray F32} (h : Seen a ray.origin ray.direction s)
    (hw : ray.invDirection = recip3 ray.direction) (ht : ray.t.Above s) :
    quadTest (a.offsetBy (lit 1 (-4))) ray = true := by
  obtain ⟨h1, h2⟩ := h.quad (p := (quadLane (a.offsetBy (lit 1 (-4))) ray).1) (q := (quadLane (a.offsetBy (lit 1 (-4))) ray).2)
    (by rw [← hw]; rfl) (by rw [← hw]; rfl)
  have e2 : ((quadLane (a.offsetBy (lit 1 (-4))) ray).1 <=. (quadLane (a.offsetBy (lit 1 (-4))) ray).2) = true :=
    F32.lt_le' (h1.lt_above h2)
  have e3 : ((quadLane (a.offsetBy (lit 1 (-4))) ray).1 <. ray.t) = true := h1.lt_above ht
  unfold Rtbvh.quadTest ge
  simp only [e2, e3, Bool.and_self]

theorem near_axis {blo bhi o d : F32} (hlo : blo.Moderate) (hhi : bhi.Moderate) (ho : o.Moderate) (hd : d.Ordinary)
    (hz : d.NoNegZero) (h1 : blo.val ≤ o.val + s * d.val) (h2 : o.val + s * d.val ≤ bhi.val) :
    (nearP (blo -. lit 1 (-4)) (bhi +. lit 1 (-4)) o (one /. d) (d <. zero)).Below s ∧
    (nearP (blo -. lit 1 (-4)) (bhi +. lit 1 (-4)) o (one /. d) (!(d <. zero))).Above s ∧
    (if (d <. zero) = true then ((one /. d) <=. zero) = true else (zero <=. (one /. d)) = true) := by
  rcases (F32.axis hlo hhi ho hd h1 h2).1 with ⟨⟨h3, h4⟩, h5, h6⟩ | ⟨⟨h3, h4⟩, h5, h6⟩
  · have e : (d <. zero) = false := h5
    rw [e]; exact ⟨h3, h4, h6 hz⟩
  · have e : (d <. zero) = true := h5 hz
    rw [e]; exact ⟨h4, h3, h6⟩

/-- The single-ray test passes the padded box; the ray's sign bits fit its reciprocals. -/
theorem ray_hits {ray : Ray F32} (ha : a.Moderate) (ho : ray.origin.Moderate) (hd : ray.direction.Ordinary)
    (hz : ray.direction.NoNegZero) (hw : ray.WellFormed) (h : a.exact.Has (pointOn ray.origin ray.direction s))
    (ht : ray.tMin.IsFin) (hs : ray.tMin.val ≤ s) :
    ((a.offsetBy (lit 1 (-4))).intersect ray).isSome = true ∧ ray.Coherent := by
  obtain ⟨⟨l1, l2, l3⟩, ⟨u1, u2, u3⟩⟩ := h
  replace l1 := rat_le.1 l1; replace l2 := rat_le.1 l2; replace l3 := rat_le.1 l3
  replace u1 := rat_le.1 u1; replace u2 := rat_le.1 u2; replace u3 := rat_le.1 u3
  simp only [Aabb.exact, Vec3.exact, pointOn] at l1 l2 l3 u1 u2 u3
  obtain ⟨x1, x2, x3⟩ := near_axis ha.1.1 ha.2.1 ho.1 hd.1 hz.1 l1 u1
  obtain ⟨y1, y2, y3⟩ := near_axis ha.1.2.1 ha.2.2.1 ho.2.1 hd.2.1 hz.2.1 l2 u2
  obtain ⟨z1, z2, z3⟩ := near_axis ha.1.2.2 ha.2.2.2 ho.2.2 hd.2.2 hz.2.2 l3 u3
  obtain ⟨w1, w2, w3, w4⟩ := hw
  have i1 : ray.invDirection.x = one /. ray.direction.x := by rw [w1]; rfl
  have i2 : ray.invDirection.y = one /. ray.direction.y := by rw [w1]; rfl
  have i3 : ray.invDirection.z = one /. ray.direction.z := by rw [w1]; rfl
  rw [← i1, ← w2] at x1 x2 x3
  rw [← i2, ← w3] at y1 y2 y3
  rw [← i3, ← w4] at z1 z2 z3
  refine ⟨?_, x3, y3, z3⟩
  rw [intersect_isSome]
  unfold passes
  rw [slabs_eq]
  have lt : ∀ {x y : F32}, x.Below s → y.Above s → (x <. y) = true := fun h h' => h.lt_above h'
  have nb : ∀ {x : F32}, x.Below s → Num x := fun h => h.num
  have na : ∀ {x : F32}, x.Above s → Num x := fun h => h.num
  exact (slabs6_iff (nb x1) (na x2) (nb y1) (na y2) (nb z1) (na z2)).2
    ⟨lt_le (lt x1 y2), lt_le (lt y1 x2), lt_le (lt x1 z2), lt_le (lt y1 z2), lt_le (lt z1 x2), lt_le (lt z1 y2),
      x2.gt ht hs, y2.gt ht hs, z2.gt ht hs⟩

end tests

/-- A hierarchy whose node boxes contain the boxes of the primitives in `K` with their padding. -/
structure Builder.Padded (b : Builder F32) (order : List Nat) (bvh : Bvh F32) (T : BTree F32) (K : Nat → Prop) : Prop where
  compact : bvh.Compact T
  ids : (T.ids bvh.indices).Perm (List.range b.primitives.length)
  rounds : T.rounds < 3 * b.primitives.length
  bounds : ∀ p < b.primitives.length, K p →
    T.Forall bvh.indices fun a ids => p ∈ ids → (padAt (b.boxes order) p).Within a

theorem locb_padded (b : Builder F32) (order : List Nat) (h : b.Legal order) (t rounds : Nat) (ht : 0 < t)
    (hs : b.primitives.length ≤ 2 ^ 29) (hn : ∀ a ∈ b.boxes order, a.Numeric) (bvh : Bvh F32)
    (e : b.constructLocb order t rounds = .ok (some (some bvh))) (T : BTree F32) (hU : Unfolds bvh.nodes 0 T) :
    b.Padded order bvh T fun _ => True := by
  obtain ⟨T', hc, hp, _, hr, _⟩ := returns_tree h hs (.inr ⟨t, rounds, ht, e⟩)
  have := hU.det hc.unfolds; subst this
  exact ⟨hc, hp, hr, fun p _ _ => (C12_locb_padded b order h t rounds ht hs bvh T e hU hn).mono fun _ _ h hq => h p hq⟩

theorem binned_padded (b : Builder F32) (order ks : List Nat) (h : b.Legal order)
    (hs : b.primitives.length ≤ 2 ^ 29) (hn : ∀ a ∈ b.boxes order, a.Numeric) (bvh : Bvh F32)
    (e : b.constructBinnedSah order ks = .ok (some (some bvh))) (T : BTree F32) (hU : Unfolds bvh.nodes 0 T) :
    b.Padded order bvh T fun p => ¬ T.Misplaces (b.ctx order) bvh.indices p := by
  obtain ⟨T', hc, hp, _, hr, _⟩ := returns_tree h hs (.inl ⟨ks, e⟩)
  have := hU.det hc.unfolds; subst this
  exact ⟨hc, hp, hr, fun p hpn hm => C07_miss_cause_partial b order ks h bvh T e hU hn p hpn hm⟩

/-- The four kinds of query never cull a primitive in `K` whose box the ray meets in exact arithmetic. -/
def Watertight (b : Builder F32) (order : List Nat) (bvh : Bvh F32) (T : BTree F32) (K : Nat → Prop) : Prop :=
  -- rays through the `Bvh`
  (T.depth ≤ 31 → ∀ (ray : Ray F32) (cb : Ray F32 → Nat → Ray F32 × Bool), ray.WellFormed →
    (∀ r id, ∃ t, cb r id = ({ r with t := t }, false)) → ∀ fuel ≥ 3 * b.primitives.length,
    ray.origin.Moderate → ray.direction.Ordinary → ray.direction.NoNegZero → ray.tMin.IsFin →
    ∀ p < b.primitives.length, K p → (boxAt (b.boxes order) p).Moderate → ∀ s : ℚ, ray.tMin.val ≤ s →
      (boxAt (b.boxes order) p).exact.Has (pointOn ray.origin ray.direction s) → p ∈ (bvh.forIndices cb fuel ray).items) ∧
  -- packets through the `Bvh`
  (T.depth ≤ 31 → ∀ (pk : RayPacket4 F32) (cb : RayPacket4 F32 → Nat → RayPacket4 F32 × Bool), pk.hasNaN = false →
    pk.WellFormed → (∀ r id, r.Lowered (cb r id).1 ∧ (cb r id).2 = false) → ∀ fuel ≥ 3 * b.primitives.length,
    ∀ i, (pk.originOf i).Moderate → (pk.dirOf i).Ordinary →
    ∀ p < b.primitives.length, K p → (boxAt (b.boxes order) p).Moderate → ∀ s : ℚ, 0 ≤ s →
      ((bvh.forIndicesPacket cb fuel pk).ray.t.get i).Above s →
      (boxAt (b.boxes order) p).exact.Has (pointOn (pk.originOf i) (pk.dirOf i) s) →
      p ∈ (bvh.forIndicesPacket cb fuel pk).items) ∧
  -- through the `Mbvh`
  (T.depth ≤ 22 ∨ T.leaves ≤ 65 → ∀ k > T.depth, ∃ q : Mbvh F32, Mbvh.construct k bvh = some q ∧ ∃ N, ∀ fuel ≥ N,
    (∀ (ray : Ray F32) (cb : Ray F32 → Nat → Ray F32 × Bool), ray.invDirection = recip3 ray.direction →
      (∀ r id, r.Lowered (cb r id).1 ∧ (cb r id).2 = false) → ray.origin.Moderate → ray.direction.Ordinary →
      ∀ p < b.primitives.length, K p → (boxAt (b.boxes order) p).Moderate → ∀ s : ℚ,
        (q.forIndices cb fuel ray).ray.t.Above s →
        (boxAt (b.boxes order) p).exact.Has (pointOn ray.origin ray.direction s) → p ∈ (q.forIndices cb fuel ray).items) ∧
    (∀ (pk : RayPacket4 F32) (cb : RayPacket4 F32 → Nat → RayPacket4 F32 × Bool), pk.WellFormed →
      (∀ r id, r.Lowered (cb r id).1 ∧ (cb r id).2 = false) → ∀ i, (pk.originOf i).Moderate → (pk.dirOf i).Ordinary →
      ∀ p < b.primitives.length, K p → (boxAt (b.boxes order) p).Moderate → ∀ s : ℚ,
        ((q.forIndicesPacket cb fuel pk).ray.t.get i).Above s →
        (boxAt (b.boxes order) p).exact.Has (pointOn (pk.originOf i) (pk.dirOf i) s) →
        p ∈ (q.forIndicesPacket cb fuel pk).items))

theorem F32.Moderate.num {x : F32} (h : x.Moderate) : FloatOps.isNaN x = false := F32.num_of_fin h.1
theorem F32.Ordinary.num {x : F32} (h : x.Ordinary) : FloatOps.isNaN x = false := F32.num_of_fin h.1

theorem Builder.Padded.watertight {b : Builder F32} {order : List Nat} {bvh : Bvh F32} {T : BTree F32} {K : Nat → Prop}
    (S : b.Padded order bvh T K) : Watertight b order bvh T K := by
  have hr := S.rounds
  have mem : ∀ {p}, p < b.primitives.length → p ∈ T.ids bvh.indices := fun hp => S.ids.mem_iff.2 (List.mem_range.2 hp)
  have above : ∀ {p o d s}, p < b.primitives.length → K p → Seen (boxAt (b.boxes order) p) o d s →
      T.Forall bvh.indices fun a ids => p ∈ ids → (padAt (b.boxes order) p).Within a ∧ a.NoNaN o (recip3 d) :=
    fun hp hK hseen => (S.bounds _ hp hK).mono fun a ids h hq => ⟨h hq, hseen.wider a (h hq)⟩
  refine ⟨fun hdep ray cb hw hcb fuel hf ho hd hz hti p hp hK hm s hts hhit => ?_,
    fun hdep pk cb hnan hw hcb fuel hf i ho hd p hp hK hm s h0 hts hhit => ?_, fun hdep k hk => ?_⟩
  · have hseen := seen hm ho hd hhit
    obtain ⟨h1, h2⟩ := ray_hits hm ho hd hz hw hhit hti hts
    have hnan : ray.hasNaN = false := by
      simp [Ray.hasNaN, Vec3.isNaN, ho.1.num, ho.2.1.num, ho.2.2.num, hd.1.num, hd.2.1.num, hd.2.2.num]
    refine C21_ray_offered bvh T S.compact.toDenotes hdep ray hnan h2 cb hcb fuel (by omega) p (mem hp)
      (padAt (b.boxes order) p) ?_ ?_ h1
    · rw [hw.1]; exact hseen.noNaN
    · rw [hw.1]; exact above hp hK hseen
  · have hseen := seen hm ho hd hhit
    obtain ⟨_, ⟨⟨t, hrun⟩, _⟩, _, h4⟩ := C23_packet_offered bvh T S.compact.toDenotes hdep pk hnan cb hcb fuel (by omega)
    refine h4 p (mem hp) (padAt (b.boxes order) p) hseen.valid i ?_ ?_ ?_
    · rw [hw i]; exact hseen.noNaN
    · rw [hw i]; exact above hp hK hseen
    · refine Seen.mask4 (s := s) ?_ ?_ h0 hts
      · rw [hrun]; exact hseen
      · rw [hrun]; exact hw i
  · obtain ⟨q, e1, e2, _, h2, _⟩ := construct_main bvh T S.compact k hk
    have need : T.toQuad.stackNeed ≤ 32 := by
      rcases hdep with hdep | hdep
      · refine C29_quad_depth _ ?_
        by_cases h1 : 1 ≤ T.depth
        · have := toQuad_depth' T h1; omega
        · have := toQuad_depth T; omega
      · have := toQuad_need T; omega
    have hids : T.toQuad.ids q.primIndices = T.ids bvh.indices := by rw [toQuad_ids, h2]
    have aboveQ : ∀ {p o d s}, p < b.primitives.length → K p → Seen (boxAt (b.boxes order) p) o d s →
        T.toQuad.Forall q.primIndices fun a ids => p ∈ ids → (padAt (b.boxes order) p).Within a ∧ a.NoNaN o (recip3 d) := by
      intro p o d s hp hK hseen
      rw [h2]
      have h : T.Forall bvh.indices fun a ids => ∀ x ∈ ids, x = p →
          (padAt (b.boxes order) p).Within a ∧ a.NoNaN o (recip3 d) :=
        (above hp hK hseen).mono fun a ids h x hx e => h (e ▸ hx)
      exact (toQuad_forall (C := fun a x => x = p → (padAt (b.boxes order) p).Within a ∧ a.NoNaN o (recip3 d)) h).mono
        fun a ids h hq => h p hq rfl
    refine ⟨q, e1, T.toQuad.rounds, fun fuel hf => ⟨fun ray cb hw hcb ho hd p hp hK hm s hts hhit => ?_,
      fun pk cb hw hcb i ho hd p hp hK hm s hts hhit => ?_⟩⟩
    · have hseen := seen hm ho hd hhit
      obtain ⟨_, ⟨⟨t, hrun⟩, _⟩, _, h4⟩ := C28_ray_offered q T.toQuad e2 need ray cb hcb fuel hf
      refine h4 p (by rw [hids]; exact mem hp) (padAt (b.boxes order) p) hseen.valid ?_ ?_ ?_
      · rw [hw]; exact hseen.noNaN
      · rw [hw]; exact aboveQ hp hK hseen
      · refine Seen.quadTest (s := s) ?_ ?_ hts
        · rw [hrun]; exact hseen
        · rw [hrun]; exact hw
    · have hseen := seen hm ho hd hhit
      obtain ⟨_, ⟨⟨t, hrun⟩, _⟩, _, h4⟩ := C28_packet_offered q T.toQuad e2 need pk cb hcb fuel hf
      refine h4 i p (by rw [hids]; exact mem hp) (padAt (b.boxes order) p) hseen.valid ?_ ?_ ?_
      · rw [hw i]; exact hseen.noNaN
      · rw [hw i]; exact aboveQ hp hK hseen
      · refine Seen.quadTest4 (s := s) ?_ ?_ hts
        · rw [hrun]; exact hseen
        · rw [hrun]; exact hw i

/-- C95, clustering builder: in `f32`, after `construct_locally_ordered_clustered`, no query culls a primitive whose box
(coordinates at most 200 in size) the ray (origin at most 200, every direction component zero or between `2^-100` and `2^100`
in size) meets in exact arithmetic at a parameter in the ray's interval.  Axis-parallel rays are included. -/
theorem C95_locb (b : Builder F32) (order : List Nat) (h : b.Legal order) (t rounds : Nat) (ht : 0 < t)
    (hs : b.primitives.length ≤ 2 ^ 29) (hn : ∀ a ∈ b.boxes order, a.Numeric) (bvh : Bvh F32)
    (e : b.constructLocb order t rounds = .ok (some (some bvh))) (T : BTree F32) (hU : Unfolds bvh.nodes 0 T) :
    Watertight b order bvh T fun _ => True :=
  (locb_padded b order h t rounds ht hs hn bvh e T hU).watertight

/-- C96, binned builder, under any schedule: the same for every primitive that no node of the tree misplaces (C07).
Missing: misplaced primitives, for which it is false (`C07_left_child_misses`, `C07_misplaced_there`). -/
theorem C96_binned_partial (b : Builder F32) (order ks : List Nat) (h : b.Legal order)
    (hs : b.primitives.length ≤ 2 ^ 29) (hn : ∀ a ∈ b.boxes order, a.Numeric) (bvh : Bvh F32)
    (e : b.constructBinnedSah order ks = .ok (some (some bvh))) (T : BTree F32) (hU : Unfolds bvh.nodes 0 T) :
    Watertight b order bvh T fun p => ¬ T.Misplaces (b.ctx order) bvh.indices p :=
  (binned_padded b order ks h hs hn bvh e T hU).watertight

theorem fin_between' {a x b : F32} (ha : a.IsFin) (hb : b.IsFin) (h1 : (a <=. x) = true) (h2 : (x <=. b) = true) :
    x.IsFin := by
  have h1' : a.le x = true := h1
  have h2' : x.le b = true := h2
  have a1 := F32.isFin_ord_lt ha
  have b1 := F32.isFin_ord_lt hb
  simp only [F32.le, Bool.and_eq_true, decide_eq_true_eq] at h1' h2'
  cases x with
  | nan => simp [F32.isNaN] at h1'
  | inf s =>
    have e : (F32.inf s).ord = if s then -(f32Top : Int) else (f32Top : Int) := rfl
    rw [e] at h1' h2'
    cases s
    · exact absurd (show (f32Top : Int) ≤ b.ord from h2'.2) (by omega)
    · exact absurd (show a.ord ≤ -(f32Top : Int) from h1'.2) (by omega)
  | fin s k h => exact ⟨_, _, _, rfl⟩

/-- A vertex in a box, both in `f32`, is in it exactly. -/
theorem exact_has {a : Aabb F32} {v : Vec3 F32} (ha : a.Moderate) (h : a.Has v) : a.exact.Has v.exact := by
  obtain ⟨⟨l1, l2, l3⟩, ⟨u1, u2, u3⟩⟩ := h
  have f1 := fin_between' ha.1.1.1 ha.2.1.1 l1 u1
  have f2 := fin_between' ha.1.2.1.1 ha.2.2.1.1 l2 u2
  have f3 := fin_between' ha.1.2.2.1 ha.2.2.2.1 l3 u3
  exact ⟨⟨rat_le.2 ((F32.le_fin_iff ha.1.1.1 f1).1 l1), rat_le.2 ((F32.le_fin_iff ha.1.2.1.1 f2).1 l2),
      rat_le.2 ((F32.le_fin_iff ha.1.2.2.1 f3).1 l3)⟩,
    ⟨rat_le.2 ((F32.le_fin_iff f1 ha.2.1.1).1 u1), rat_le.2 ((F32.le_fin_iff f2 ha.2.2.1.1).1 u2),
      rat_le.2 ((F32.le_fin_iff f3 ha.2.2.2.1).1 u3)⟩⟩

/-- C95 for triangles: if the three vertices lie in the box, a point of the triangle, taken in exact arithmetic, lies in
the box taken in exact arithmetic. So a triangle that the ray meets exactly is yielded by the queries of `C95_locb` and
`C96_binned_partial`. -/
theorem C95_triangle (a : Aabb F32) (ha : a.Moderate) (tr : Triangle F32) (h0 : a.Has tr.v0) (h1 : a.Has tr.v1)
    (h2 : a.Has tr.v2) (P : Vec3 Rat) (hP : tr.exact.Has P) : a.exact.Has P :=
  C39_hit_in_box tr.exact P hP _ (exact_has ha h0) (exact_has ha h1) (exact_has ha h2)

/-! ### The hypotheses can be met, and cannot be dropped -/

/-- A ray along the x axis from (-4, 0.5, -0.5), with two zero direction components. -/
def alongX : Ray F32 := Ray.new ⟨lit (-4) 0, lit 5 (-1), lit (-5) (-1)⟩ ⟨one, zero, zero⟩
/-- The same ray with -0.0 in the second component of the direction. -/
def alongNegX : Ray F32 := Ray.new ⟨lit (-4) 0, lit 5 (-1), lit (-5) (-1)⟩ ⟨one, neg zero, zero⟩

instance (x : F32) : Decidable x.IsFin :=
  match x with
  | .nan => .isFalse (by rintro ⟨_, _, _, h⟩; cases h)
  | .inf _ => .isFalse (by rintro ⟨_, _, _, h⟩; cases h)
  | .fin _ _ _ => .isTrue ⟨_, _, _, rfl⟩
instance (x : F32) : Decidable x.NoNegZero :=
  match x with
  | .nan => .isTrue fun _ h => by cases h
  | .inf _ => .isTrue fun _ h => by cases h
  | .fin false _ _ => .isTrue fun _ h => by cases h
  | .fin true 0 _ => .isFalse fun h => h _ rfl
  | .fin true (_ + 1) _ => .isTrue fun _ h => by cases h
instance (x : F32) : Decidable x.Moderate := inferInstanceAs (Decidable (_ ∧ _))
instance (x : F32) : Decidable x.Ordinary := inferInstanceAs (Decidable (_ ∧ _))
instance (x : F32) (s : ℚ) : Decidable (x.Above s) := inferInstanceAs (Decidable (_ ∨ _))

/-- The hypotheses of C95 hold in binary32 for the three cubes of C63 (both builders' trees of depth 2, as there) and
an axis-parallel ray that goes through all three; and the queries do yield all three. -/
example : (∀ a ∈ (threeScene F32).boxes (List.range 3), a.Moderate) ∧ alongX.WellFormed ∧ alongX.origin.Moderate ∧
    alongX.direction.Ordinary ∧ alongX.direction.NoNegZero ∧ alongX.tMin.IsFin ∧
    (∀ p < 3, ∃ s, alongX.tMin.val ≤ s ∧ alongX.t.Above s ∧
      (boxAt ((threeScene F32).boxes (List.range 3)) p).exact.Has (pointOn alongX.origin alongX.direction s)) ∧
    (builtTree ((threeScene F32).constructLocb (List.range 3) 2 5)).map (fun x =>
      (x.1.forIndices (fun r _ => (r, false)) 9 alongX).items.length) = some 3 := by
  refine ⟨by unfold Aabb.Moderate Vec3.Moderate; decide +kernel, by unfold Ray.WellFormed; decide +kernel,
    by unfold Vec3.Moderate; decide +kernel, by unfold Vec3.Ordinary; decide +kernel,
    by unfold Vec3.NoNegZero; decide +kernel, by decide +kernel, ?_, by decide +kernel⟩
  intro p hp
  have : p = 0 ∨ p = 1 ∨ p = 2 := by omega
  rcases this with rfl | rfl | rfl
  · exact ⟨4, by decide +kernel⟩
  · exact ⟨8, by decide +kernel⟩
  · exact ⟨13, by decide +kernel⟩

/-- C95 needs `NoNegZero` for the single-ray query of the `Bvh`: with -0.0 instead of 0.0 the same ray is offered nothing,
although it goes through all three cubes; the `Mbvh` made from the same tree offers all three. -/
theorem C95_negative_zero_misses : ∃ bvh T q, (threeScene F32).constructLocb (List.range 3) 2 5 = .ok (some (some bvh)) ∧
    Unfolds bvh.nodes 0 T ∧ Mbvh.construct 10 bvh = some q ∧
    alongNegX.WellFormed ∧ alongNegX.direction.Ordinary ∧
    (∀ p < 3, ∃ s, alongX.tMin.val ≤ s ∧ alongNegX.t.Above s ∧
      (boxAt ((threeScene F32).boxes (List.range 3)) p).exact.Has (pointOn alongNegX.origin alongNegX.direction s)) ∧
    (bvh.forIndices (fun r _ => (r, false)) 9 alongNegX).items = [] ∧
    (q.forIndices (fun r _ => (r, false)) 9 alongNegX).items.length = 3 := by
  have h : (builtTree ((threeScene F32).constructLocb (List.range 3) 2 5)).map (fun x =>
      ((x.1.forIndices (fun r _ => (r, false)) 9 alongNegX).items, (Mbvh.construct 10 x.1).map fun q =>
        (q.forIndices (fun r _ => (r, false)) 9 alongNegX).items.length)) = some ([], some 3) := by decide +kernel
  obtain ⟨⟨bvh, T⟩, e, h2⟩ := Option.map_eq_some_iff.1 h
  obtain ⟨e1, e2⟩ := builtTree_some e
  simp only [Prod.mk.injEq] at h2
  obtain ⟨q, hq, h3⟩ := Option.map_eq_some_iff.1 h2.2
  refine ⟨bvh, T, q, e1, e2, hq, by unfold Ray.WellFormed; decide +kernel, by unfold Vec3.Ordinary; decide +kernel, ?_, h2.1, h3⟩
  intro p hp
  have : p = 0 ∨ p = 1 ∨ p = 2 := by omega
  rcases this with rfl | rfl | rfl
  · exact ⟨4, by decide +kernel⟩
  · exact ⟨8, by decide +kernel⟩
  · exact ⟨13, by decide +kernel⟩

/-- A triangle in the plane x = 5248, about 13000 away from the origin. -/
def outTri : Triangle F32 :=
  ⟨⟨lit 5248 0, lit 8192 0, lit 8192 0⟩, ⟨lit 5248 0, lit 8292 0, lit 8192 0⟩, ⟨lit 5248 0, lit 8192 0, lit 8292 0⟩⟩
/-- A builder for three copies of that triangle with the tight box. -/
def outScene : Builder F32 :=
  { aabbs := some (List.replicate 3 (ofPoints2 outTri.v0 ⟨lit 5248 0, lit 8292 0, lit 8292 0⟩))
    primitives := List.replicate 3 { center := outTri.v0, aabb := ofPoints2 outTri.v0 ⟨lit 5248 0, lit 8292 0, lit 8292 0⟩ }
    primitivesPerLeaf := none }
/-- The ray from the origin to the corner of the triangle. -/
def outRay : Ray F32 := Ray.new ⟨zero, zero, zero⟩ ⟨lit 5248 0, lit 8192 0, lit 8192 0⟩

/-- C95 needs some bound on the coordinates: at a distance of about 13000 the padding rounds away, and the ray from the
origin to a corner of the triangle, which meets the triangle's box and the triangle exactly, at parameter 1, is offered
nothing, neither by the `Bvh` nor by the `Mbvh`. -/
theorem C95_far_misses : ∃ bvh q, outScene.Legal [0, 1, 2] ∧ outScene.constructLocb [0, 1, 2] 1 5 = .ok (some (some bvh)) ∧
    Mbvh.construct 10 bvh = some q ∧ (boxAt (outScene.boxes [0, 1, 2]) 0).exact.Has (pointOn outRay.origin outRay.direction 1) ∧
    outTri.exact.Has (pointOn outRay.origin outRay.direction 1) ∧ outRay.tMin.val ≤ 1 ∧ outRay.t.Above 1 ∧
    outRay.WellFormed ∧ outRay.direction.Ordinary ∧ outRay.direction.NoNegZero ∧
    (bvh.forIndices (fun r _ => (r, false)) 9 outRay).items = [] ∧
    (q.forIndices (fun r _ => (r, false)) 9 outRay).items = [] := by
  have h : (builtTree (outScene.constructLocb [0, 1, 2] 1 5)).map (fun x =>
      ((x.1.forIndices (fun r _ => (r, false)) 9 outRay).items, (Mbvh.construct 10 x.1).map fun q =>
        (q.forIndices (fun r _ => (r, false)) 9 outRay).items)) = some ([], some []) := by decide +kernel
  obtain ⟨⟨bvh, T⟩, e, h2⟩ := Option.map_eq_some_iff.1 h
  obtain ⟨e1, e2⟩ := builtTree_some e
  simp only [Prod.mk.injEq] at h2
  obtain ⟨q, hq, h3⟩ := Option.map_eq_some_iff.1 h2.2
  exact ⟨bvh, q, ⟨by decide, by decide, by decide, by decide⟩, e1, hq, by decide +kernel,
    ⟨0, 0, by decide +kernel⟩, by decide +kernel, by decide +kernel, by unfold Ray.WellFormed; decide +kernel,
    by unfold Vec3.Ordinary; decide +kernel, by unfold Vec3.NoNegZero; decide +kernel, h2.1, h3⟩

end Rtbvh
