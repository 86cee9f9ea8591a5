import Verif.Props.AnyHit
import Verif.Props.TrianglePacket
/- Property C70: nearest hits with ray packets, in exact arithmetic. -/
namespace Rtbvh
open FloatOps Aabb

/-- The parametrised line of lane `i`. -/
def RayPacket4.pointAt (p : RayPacket4 Rat) (i : Fin 4) (s : Rat) : Vec3 Rat :=
  ⟨p.originX.get i + s * p.directionX.get i, p.originY.get i + s * p.directionY.get i,
   p.originZ.get i + s * p.directionZ.get i⟩

theorem contains_rat {a : Aabb Rat} {v : Vec3 Rat} : a.contains v = true ↔
    (a.min.x < v.x ∧ v.x < a.max.x) ∧ (a.min.y < v.y ∧ v.y < a.max.y) ∧ (a.min.z < v.z ∧ v.z < a.max.z) := by
  unfold Aabb.contains Vec3.allGt Vec3.allLt
  simp only [Bool.and_eq_true, rat_lt]
  constructor
  · rintro ⟨⟨⟨a, b⟩, c⟩, ⟨d, e⟩, f⟩
    exact ⟨⟨rat_ge_iff.1 a, d⟩, ⟨rat_ge_iff.1 b, e⟩, rat_ge_iff.1 c, f⟩
  · rintro ⟨⟨a, d⟩, ⟨b, e⟩, c, f⟩
    exact ⟨⟨⟨rat_ge_iff.2 a, rat_ge_iff.2 b⟩, rat_ge_iff.2 c⟩, ⟨d, e⟩, f⟩

theorem axis_strict {lo hi o d s : Rat} (hd : d ≠ 0) (h : lo < o + s * d ∧ o + s * d < hi) :
    Min.min ((lo - o) * (1 / d)) ((hi - o) * (1 / d)) < s ∧ s < Max.max ((lo - o) * (1 / d)) ((hi - o) * (1 / d)) := by
  rw [mul_one_div, mul_one_div]
  rcases lt_or_gt_of_ne hd with hn | hn
  · exact ⟨min_lt_of_right_lt (by rw [div_lt_iff_of_neg hn]; linarith),
      lt_max_of_lt_left (by rw [lt_div_iff_of_neg hn]; linarith)⟩
  · exact ⟨min_lt_of_left_lt (by rw [div_lt_iff₀ hn]; linarith),
      lt_max_of_lt_right (by rw [lt_div_iff₀ hn]; linarith)⟩

theorem packet_inv {p : RayPacket4 Rat} (hw : p.WellFormed) (i : Fin 4) :
    p.invDirectionX.get i = 1 / p.directionX.get i ∧ p.invDirectionY.get i = 1 / p.directionY.get i ∧
    p.invDirectionZ.get i = 1 / p.directionZ.get i := by
  have h := hw i
  unfold RayPacket4.invOf recip3 at h
  simp only [Vec3.div, Vec3.map2, Vec3.splat, Vec3.mk.injEq, rat_one] at h
  exact h

/-- The packet test accepts a lane whose line is strictly inside the box at some `s ≥ 0` before the lane's `t`. -/
theorem mask4_of_contains {a : Aabb Rat} {p : RayPacket4 Rat} (hw : p.WellFormed) {i : Fin 4}
    (hd : p.directionX.get i ≠ 0 ∧ p.directionY.get i ≠ 0 ∧ p.directionZ.get i ≠ 0) {s : Rat} (h0 : 0 ≤ s)
    (ht : s < p.t.get i) (h : a.contains (p.pointAt i s) = true) : a.mask4 p i = true ∧ quadTest4 a p i = true := by
  obtain ⟨hx, hy, hz⟩ := contains_rat.1 h
  obtain ⟨ex, ey, ez⟩ := packet_inv hw i
  have ix := axis_strict hd.1 hx
  have iy := axis_strict hd.2.1 hy
  have iz := axis_strict hd.2.2 hz
  constructor
  · have hl : (a.lane4 p i).1 < s ∧ s < (a.lane4 p i).2 := by
      unfold lane4
      simp only [rat_vmin, rat_vmax, ex, ey, ez]
      exact ⟨max_lt ix.1 (max_lt iy.1 iz.1), lt_min ix.2 (lt_min iy.2 iz.2)⟩
    unfold mask4
    simp only [Bool.and_eq_true]
    refine ⟨⟨?_, ?_⟩, rat_lt.2 (hl.1.trans ht)⟩
    · rw [rat_ge_iff, rat_zero]; exact lt_of_le_of_lt h0 hl.2
    · rw [rat_ge_iff]; exact hl.1.trans hl.2
  · have hl : (quadLane4 a p i).1 < s ∧ s < (quadLane4 a p i).2 := by
      unfold quadLane4
      simp only [rat_vmin, rat_vmax, ex, ey, ez]
      exact ⟨max_lt (max_lt ix.1 iy.1) iz.1, lt_min (lt_min ix.2 iy.2) iz.2⟩
    unfold quadTest4
    simp only [Bool.and_eq_true]
    exact ⟨rat_ge_iff.2 (hl.1.trans hl.2), rat_lt.2 (hl.1.trans ht)⟩

theorem valid_of_contains {a : Aabb Rat} {v : Vec3 Rat} (h : a.contains v = true) : a.Valid := by
  obtain ⟨hx, hy, hz⟩ := contains_rat.1 h
  exact ⟨rat_le.2 (hx.1.trans hx.2).le, rat_le.2 (hy.1.trans hy.2).le, rat_le.2 (hz.1.trans hz.2).le⟩

/-- Closest-hit folding over yielded primitives, lane by lane. -/
theorem fold_packet {pk : RayPacket4 Rat} {tm : Vec4 Rat} {hits : Fin 4 → Nat → Rat → Prop}
    {cb : RayPacket4 Rat → Nat → RayPacket4 Rat × Bool} (hcb : PacketClosest pk tm hits cb) (xs : List Nat) :
    ∀ t0 : Vec4 Rat, ∃ t, xs.foldl (fun r x => (cb r x).1) { pk with t := t0 } = { pk with t := t } ∧
      ∀ i, IsNearestFrom (hits i) xs (tm.get i) (t0.get i) (t.get i) := by
  induction xs with
  | nil => intro t0; exact ⟨t0, rfl, fun i => ⟨le_rfl, by simp, .inl rfl⟩⟩
  | cons x xs ih =>
    intro t0
    obtain ⟨t1, e1, h1⟩ := hcb.2 t0 x
    obtain ⟨t2, e2, h2⟩ := ih t1
    refine ⟨t2, ?_, fun i => ⟨(h2 i).le.trans (h1 i).1, ?_, ?_⟩⟩
    · rw [List.foldl_cons, e1]; exact e2
    · intro p hp s hs k1 k2
      rcases List.mem_cons.1 hp with rfl | hp
      · exact (h2 i).le.trans ((h1 i).2.1 s hs k1 k2)
      · by_cases h3 : s < t1.get i
        · exact (h2 i).lower p hp s hs k1 h3
        · exact (h2 i).le.trans (not_lt.1 h3)
    · rcases (h2 i).attained with a2 | ⟨p, hp, h⟩
      · rcases (h1 i).2.2 with a1 | ⟨k1, k2⟩
        · exact .inl (a2.trans a1)
        · right; refine ⟨x, by simp, ?_⟩; rw [a2]; exact ⟨k1, k2⟩
      · exact .inr ⟨p, by simp [hp], h⟩

theorem IsNearestFrom.widen {hits : Nat → Rat → Prop} {xs ids : List Nat} {tm t0 t : Rat}
    (h : IsNearestFrom hits xs tm t0 t) (hsub : ∀ p ∈ xs, p ∈ ids)
    (hall : ∀ p ∈ ids, ∀ s, hits p s → tm ≤ s → s < t0 → s < t → p ∈ xs) : IsNearestFrom hits ids tm t0 t := by
  refine ⟨h.le, fun p hp s hs h1 h2 => ?_, ?_⟩
  · by_contra hlt
    rw [not_le] at hlt
    exact absurd (h.lower p (hall p hp s hs h1 h2 hlt) s hs h1 h2) (not_le.2 hlt)
  · rcases h.attained with a | ⟨p, hp, k⟩
    · exact .inl a
    · exact .inr ⟨p, hsub p hp, k⟩

theorem IsNearestFrom.perm {hits : Nat → Rat → Prop} {xs ys : List Nat} {tm t0 t : Rat}
    (h : IsNearestFrom hits xs tm t0 t) (hp : xs.Perm ys) : IsNearestFrom hits ys tm t0 t :=
  h.widen (fun _ hx => hp.mem_iff.1 hx) (fun _ hx _ _ _ _ _ => hp.mem_iff.2 hx)

theorem packetClosest_lowered {pk : RayPacket4 Rat} {tm : Vec4 Rat} {hits : Fin 4 → Nat → Rat → Prop}
    {cb : RayPacket4 Rat → Nat → RayPacket4 Rat × Bool} (hcb : PacketClosest pk tm hits cb) (q : RayPacket4 Rat) (id : Nat) :
    q.Lowered (cb q id).1 ∧ (cb q id).2 = false := by
  obtain ⟨t, e, hl⟩ := hcb.1 q id
  rw [e]
  exact ⟨⟨⟨t, rfl⟩, fun i => .inr (rat_le.2 (hl i))⟩, rfl⟩

/-- C70 on a `Bvh`, exact arithmetic: running a closest-hit packet test on every primitive yielded by packet traversal
leaves in every lane of `packet.t` the brute-force nearest hit of that lane over all stored primitives and changes
nothing else, although nodes are pruned with the shrinking `packet.t` and a node is entered if *any* lane hits it.  For
every tree at most 31 deep whose boxes contain the given boxes, all packets without zero direction components and lower
ends `tMin ≥ 0`, and all primitives whose hit points lie strictly inside their boxes. -/
theorem C70_bvh_packet_nearest (b : Bvh Rat) (T : BTree Rat) (h : b.Denotes T) (hdep : T.depth ≤ 31)
    (boxes : Nat → Aabb Rat) (hb : T.Bounds b.indices boxes) (pk : RayPacket4 Rat) (hw : pk.WellFormed)
    (hd : ∀ i, pk.directionX.get i ≠ 0 ∧ pk.directionY.get i ≠ 0 ∧ pk.directionZ.get i ≠ 0) (tm : Vec4 Rat)
    (h0 : ∀ i, 0 ≤ tm.get i) (hits : Fin 4 → Nat → Rat → Prop)
    (hhits : ∀ i p s, hits i p s → (boxes p).contains (pk.pointAt i s) = true)
    (cb : RayPacket4 Rat → Nat → RayPacket4 Rat × Bool) (hcb : PacketClosest pk tm hits cb) (fuel : Nat)
    (hf : T.rounds < fuel) :
    ∃ t, (b.forIndicesPacket cb fuel pk).ray = { pk with t := t } ∧
      ∀ i, IsNearestFrom (hits i) (T.ids b.indices) (tm.get i) (pk.t.get i) (t.get i) := by
  have hn : pk.hasNaN = false := rfl
  obtain ⟨_, _, hcount, hcomp⟩ := C23_packet_complete b T h hdep boxes hb pk hn cb (packetClosest_lowered hcb) fuel hf
  have hray : (b.forIndicesPacket cb fuel pk).ray =
      (b.forIndicesPacket cb fuel pk).items.foldl (fun r x => (cb r x).1) pk := by
    rw [C23_packet_traversal_refines b T h hdep pk hn cb fuel hf]; exact visit_ray T pk
  obtain ⟨t, e, hnear⟩ := fold_packet hcb (b.forIndicesPacket cb fuel pk).items pk.t
  have hfr := hray.trans e
  refine ⟨t, hfr, fun i => (hnear i).widen (fun p hp => ?_) (fun p hp s hs h1 h2 h3 => ?_)⟩
  · exact List.count_pos_iff.1 (Nat.lt_of_lt_of_le (List.count_pos_iff.2 hp) (hcount p))
  · have hc := hhits i p s hs
    refine hcomp p hp (valid_of_contains hc) i (treeNoNaN_rat _ _ _ _) (noNaN_rat _ _ _) ?_
    rw [hfr]
    exact (mask4_of_contains (p := { pk with t := t }) hw (hd i) ((h0 i).trans h1) h3 hc).1

/-- C70 on an `Mbvh`. -/
theorem C70_mbvh_packet_nearest (q : Mbvh Rat) (Q : QTree Rat) (h : q.Denotes Q) (hdep : Q.stackNeed ≤ 32)
    (boxes : Nat → Aabb Rat) (hb : Q.Bounds q.primIndices boxes) (pk : RayPacket4 Rat) (hw : pk.WellFormed)
    (hd : ∀ i, pk.directionX.get i ≠ 0 ∧ pk.directionY.get i ≠ 0 ∧ pk.directionZ.get i ≠ 0) (tm : Vec4 Rat)
    (h0 : ∀ i, 0 ≤ tm.get i) (hits : Fin 4 → Nat → Rat → Prop)
    (hhits : ∀ i p s, hits i p s → (boxes p).contains (pk.pointAt i s) = true)
    (cb : RayPacket4 Rat → Nat → RayPacket4 Rat × Bool) (hcb : PacketClosest pk tm hits cb) (fuel : Nat)
    (hf : Q.rounds ≤ fuel) :
    ∃ t, (q.forIndicesPacket cb fuel pk).ray = { pk with t := t } ∧
      ∀ i, IsNearestFrom (hits i) (Q.ids q.primIndices) (tm.get i) (pk.t.get i) (t.get i) := by
  obtain ⟨_, _, hcount, hcomp⟩ := C28_packet_complete q Q h hdep boxes hb pk cb (packetClosest_lowered hcb) fuel hf
  have hray : (q.forIndicesPacket cb fuel pk).ray =
      (q.forIndicesPacket cb fuel pk).items.foldl (fun r x => (cb r x).1) pk := by
    rw [(C28_traversal_refines q Q h hdep fuel hf).2]; exact Q.visit_ray pk
  obtain ⟨t, e, hnear⟩ := fold_packet hcb (q.forIndicesPacket cb fuel pk).items pk.t
  have hfr := hray.trans e
  refine ⟨t, hfr, fun i => (hnear i).widen (fun p hp => ?_) (fun p hp s hs h1 h2 h3 => ?_)⟩
  · exact List.count_pos_iff.1 (Nat.lt_of_lt_of_le (List.count_pos_iff.2 hp) (hcount p))
  · have hc := hhits i p s hs
    refine hcomp i (quadNoNaN_rat _ _ _ _) p hp (valid_of_contains hc) (noNaN_rat _ _ _) ?_
    rw [hfr]
    exact (mask4_of_contains (p := { pk with t := t }) hw (hd i) ((h0 i).trans h1) h3 hc).2

/-! Packets through a triangle mesh, end to end. -/

/-- The loop body of a packet mesh tracer: `triangles[id].intersect4(packet, t_min)`. -/
def meshCb4 {F : Type} [FloatOps F] (tris : List (Triangle F)) (tm : Vec4 F) (q : RayPacket4 F) (p : Nat) :
    RayPacket4 F × Bool :=
  match tris[p]? with
  | some tr => ((tr.intersect4 q tm).1, false)
  | none => (q, false)

/-- Lane `i` meets triangle `p` of the mesh at parameter `s`, and is not (nearly) parallel to its plane: `intersect4`
ignores triangles whose determinant is inside `(-1e-6, 1e-6)`. -/
def MeshHit4 (tris : List (Triangle Rat)) (pk : RayPacket4 Rat) (i : Fin 4) (p : Nat) (s : Rat) : Prop :=
  ∃ tr, tris[p]? = some tr ∧ (tr.det (pk.dirOf i) ≤ -(1 / 1000000) ∨ 1 / 1000000 ≤ tr.det (pk.dirOf i)) ∧
    tr.Has (pk.pointAt i s)

theorem padAt_contains {boxes : List (Aabb Rat)} {p : Nat} {v : Vec3 Rat} (h : (boxAt boxes p).Has v) :
    (padAt boxes p).contains v = true := by
  have hs : ∀ x : Rat, PadStrict x := by
    intro x
    have : (0 : Rat) < FloatOps.lit 1 (-4) := by
      show (0 : Rat) < ((1 : Int) : Rat) * ratPow10 (-4)
      have := ratPow10_pos (-4)
      simpa using this
    constructor
    · rw [rat_lt]; show x - _ < x; linarith
    · rw [rat_lt]; show x < x + _; linarith
  exact contains_offset h ⟨hs _, hs _, hs _⟩

theorem meshHit4_box {tris : List (Triangle Rat)} {boxes : List (Aabb Rat)} (h : BoxesFit tris (boxAt boxes))
    {pk : RayPacket4 Rat} (i : Fin 4) (p : Nat) (s : Rat) (hh : MeshHit4 tris pk i p s) :
    (padAt boxes p).contains (pk.pointAt i s) = true := by
  obtain ⟨tr, e, _, hs⟩ := hh
  obtain ⟨h0, h1, h2⟩ := h p tr e
  exact padAt_contains (C39_hit_in_box tr _ hs _ h0 h1 h2)

theorem meshCb4_closest (tris : List (Triangle Rat)) (tm : Vec4 Rat) (pk : RayPacket4 Rat) :
    PacketClosest pk tm (MeshHit4 tris pk) (meshCb4 tris tm) := by
  refine ⟨fun q p => ?_, fun t p => ?_⟩
  · unfold meshCb4
    cases e : tris[p]? with
    | none => exact ⟨q.t, rfl, fun _ => le_rfl⟩
    | some tr =>
      obtain ⟨_, h2, h3, h4⟩ := C40_packet_protocol tr q tm
      refine ⟨(tr.intersect4 q tm).1.t, by show ((tr.intersect4 q tm).1, false) = _; rw [← h2], fun i => ?_⟩
      cases hb : laneHit (tr.intersect4 q tm).2 i with
      | true => exact (rat_lt.1 (h3 i hb).2).le
      | false => exact (h4 i hb).le
  · unfold meshCb4
    cases e : tris[p]? with
    | none =>
      refine ⟨t, rfl, fun i => ⟨le_rfl, ?_, .inl rfl⟩⟩
      rintro s ⟨tr, e', _⟩; rw [e] at e'; cases e'
    | some tr =>
      obtain ⟨_, h2, h3, h4⟩ := C40_packet_protocol tr { pk with t := t } tm
      refine ⟨(tr.intersect4 { pk with t := t } tm).1.t, ?_, fun i => ?_⟩
      · show ((tr.intersect4 { pk with t := t } tm).1, false) = _; rw [h2]
      · obtain ⟨k1, k2⟩ := C40_packet_exact tr { pk with t := t } tm i
        cases hb : laneHit (tr.intersect4 { pk with t := t } tm).2 i with
        | true =>
          obtain ⟨c1, c2⟩ := h3 i hb
          obtain ⟨hhas, huniq⟩ := k2 hb
          refine ⟨(rat_lt.1 c2).le, ?_, .inr ⟨⟨tr, e, (k1.1 hb).1, hhas⟩, rat_le.1 c1⟩⟩
          rintro s ⟨tr', e', _, hs⟩ _ _
          rw [e] at e'; cases e'
          exact (huniq s hs).ge
        | false =>
          refine ⟨(h4 i hb).le, ?_, .inl (h4 i hb)⟩
          rintro s ⟨tr', e', hdet, hs⟩ c1 c2
          rw [e] at e'; cases e'
          have := k1.2 ⟨hdet, s, c1, c2, hs⟩
          rw [hb] at this; cases this

/-- Packet tracing of a mesh on a built hierarchy whose boxes contain the padded boxes. -/
theorem packet_main {b : Builder Rat} {order : List Nat} {bvh : Bvh Rat} {T : BTree Rat} (hc : bvh.Compact T)
    (hp : (T.ids bvh.indices).Perm (List.range b.primitives.length)) (hr : T.rounds < 3 * b.primitives.length)
    (hb : T.Bounds bvh.indices (padAt (b.boxes order))) (pk : RayPacket4 Rat) (hw : pk.WellFormed)
    (hd : ∀ i, pk.directionX.get i ≠ 0 ∧ pk.directionY.get i ≠ 0 ∧ pk.directionZ.get i ≠ 0) (tm : Vec4 Rat)
    (h0 : ∀ i, 0 ≤ tm.get i) (tris : List (Triangle Rat)) (hfit : BoxesFit tris (boxAt (b.boxes order))) :
    (T.depth ≤ 31 → ∀ fuel ≥ 3 * b.primitives.length,
      ∃ t, (bvh.forIndicesPacket (meshCb4 tris tm) fuel pk).ray = { pk with t := t } ∧
        ∀ i, IsNearestFrom (MeshHit4 tris pk i) (List.range b.primitives.length) (tm.get i) (pk.t.get i) (t.get i)) ∧
    (T.depth ≤ 22 ∨ T.leaves ≤ 65 → ∀ depth > T.depth, ∃ q : Mbvh Rat, Mbvh.construct depth bvh = some q ∧
      ∃ N, ∀ fuel ≥ N, ∃ t, (q.forIndicesPacket (meshCb4 tris tm) fuel pk).ray = { pk with t := t } ∧
        ∀ i, IsNearestFrom (MeshHit4 tris pk i) (List.range b.primitives.length) (tm.get i) (pk.t.get i) (t.get i)) := by
  refine ⟨fun hdep fuel hf => ?_, fun hdep k hk => ?_⟩
  · obtain ⟨t, e, h⟩ := C70_bvh_packet_nearest bvh T hc.toDenotes hdep _ hb pk hw hd tm h0 _
      (fun i p s hh => meshHit4_box hfit i p s hh) _ (meshCb4_closest tris tm pk) fuel (by omega)
    exact ⟨t, e, fun i => (h i).perm hp⟩
  · obtain ⟨q, e1, e2, _, h2, _⟩ := construct_main bvh T hc k hk
    have need : T.toQuad.stackNeed ≤ 32 := by
      rcases hdep with hdep | hdep
      · refine C29_quad_depth _ ?_
        by_cases h1 : 1 ≤ T.depth
        · have := toQuad_depth' T h1; omega
        · have := toQuad_depth T; omega
      · have := toQuad_need T; omega
    refine ⟨q, e1, T.toQuad.rounds, fun fuel hf => ?_⟩
    obtain ⟨t, e, h⟩ := C70_mbvh_packet_nearest q T.toQuad e2 need _
      (by rw [h2]; exact toQuad_forall (C := fun a p => (padAt (b.boxes order) p).Within a) hb) pk hw hd tm h0 _
      (fun i p s hh => meshHit4_box hfit i p s hh) _ (meshCb4_closest tris tm pk) fuel hf
    exact ⟨t, e, fun i => (h i).perm (by rw [toQuad_ids, h2]; exact hp)⟩

/-- C70 end to end, clustering builder, exact arithmetic: build over boxes that contain the triangles' vertices, run
`intersect4` on every id the packet traversal yields; afterwards every lane of `packet.t` is the smallest parameter in
`[t_min, t)` at which that lane's ray meets any triangle of the mesh (flat triangles included: the builder pads). -/
theorem C70_mesh_locb (tris : List (Triangle Rat)) (b : Builder Rat) (order : List Nat) (h : b.Legal order)
    (t rounds : Nat) (ht : 0 < t) (hs : b.primitives.length ≤ 2 ^ 29) (hfit : BoxesFit tris (boxAt (b.boxes order)))
    (bvh : Bvh Rat) (e : b.constructLocb order t rounds = .ok (some (some bvh))) (T : BTree Rat)
    (hU : Unfolds bvh.nodes 0 T) (pk : RayPacket4 Rat) (hw : pk.WellFormed)
    (hd : ∀ i, pk.directionX.get i ≠ 0 ∧ pk.directionY.get i ≠ 0 ∧ pk.directionZ.get i ≠ 0) (tm : Vec4 Rat)
    (h0 : ∀ i, 0 ≤ tm.get i) :
    (T.depth ≤ 31 → ∀ fuel ≥ 3 * b.primitives.length,
      ∃ t, (bvh.forIndicesPacket (meshCb4 tris tm) fuel pk).ray = { pk with t := t } ∧
        ∀ i, IsNearestFrom (MeshHit4 tris pk i) (List.range b.primitives.length) (tm.get i) (pk.t.get i) (t.get i)) ∧
    (T.depth ≤ 22 ∨ T.leaves ≤ 65 → ∀ depth > T.depth, ∃ q : Mbvh Rat, Mbvh.construct depth bvh = some q ∧
      ∃ N, ∀ fuel ≥ N, ∃ t, (q.forIndicesPacket (meshCb4 tris tm) fuel pk).ray = { pk with t := t } ∧
        ∀ i, IsNearestFrom (MeshHit4 tris pk i) (List.range b.primitives.length) (tm.get i) (pk.t.get i) (t.get i)) := by
  obtain ⟨T', hc, hp, _, hr, _⟩ := returns_tree h hs (.inr ⟨t, rounds, ht, e⟩)
  have := hU.det hc.unfolds; subst this
  exact packet_main hc hp hr (C12_locb_padded b order h t rounds ht hs bvh T e hU fun a _ => rat_numeric a) pk hw hd tm h0
    tris hfit

/-- C70 end to end, binned builds that misplace nothing (`Spec/Sah.lean`).  Missing: builds that do
(`C07_left_child_misses`, `C07_misplaced_there`). -/
theorem C70_mesh_binned_partial (tris : List (Triangle Rat)) (b : Builder Rat) (order ks : List Nat) (h : b.Legal order)
    (hs : b.primitives.length ≤ 2 ^ 29) (hfit : BoxesFit tris (boxAt (b.boxes order)))
    (bvh : Bvh Rat) (e : b.constructBinnedSah order ks = .ok (some (some bvh))) (T : BTree Rat)
    (hU : Unfolds bvh.nodes 0 T)
    (hm : ∀ p < b.primitives.length, ¬ T.Misplaces (b.ctx order) bvh.indices p)
    (pk : RayPacket4 Rat) (hw : pk.WellFormed)
    (hd : ∀ i, pk.directionX.get i ≠ 0 ∧ pk.directionY.get i ≠ 0 ∧ pk.directionZ.get i ≠ 0) (tm : Vec4 Rat)
    (h0 : ∀ i, 0 ≤ tm.get i) :
    (T.depth ≤ 31 → ∀ fuel ≥ 3 * b.primitives.length,
      ∃ t, (bvh.forIndicesPacket (meshCb4 tris tm) fuel pk).ray = { pk with t := t } ∧
        ∀ i, IsNearestFrom (MeshHit4 tris pk i) (List.range b.primitives.length) (tm.get i) (pk.t.get i) (t.get i)) ∧
    (T.depth ≤ 22 ∨ T.leaves ≤ 65 → ∀ depth > T.depth, ∃ q : Mbvh Rat, Mbvh.construct depth bvh = some q ∧
      ∃ N, ∀ fuel ≥ N, ∃ t, (q.forIndicesPacket (meshCb4 tris tm) fuel pk).ray = { pk with t := t } ∧
        ∀ i, IsNearestFrom (MeshHit4 tris pk i) (List.range b.primitives.length) (tm.get i) (pk.t.get i) (t.get i)) := by
  obtain ⟨T', hc, hp, _, hr, _⟩ := returns_tree h hs (.inl ⟨ks, e⟩)
  have := hU.det hc.unfolds; subst this
  exact packet_main hc hp hr (C07_no_misplaced_partial b order ks h bvh T e hU (fun a _ => rat_numeric a) hm).1 pk hw hd
    tm h0 tris hfit

/-- Four rays towards the three triangles of `threeTris`: two through all of them, one turned away, one with its `t`
already before the second triangle. -/
def exPacket : RayPacket4 Rat :=
  { RayPacket4.new (fun i => ⟨-1, 1/4, 1/4 + (i.val : Rat) / 10, 1⟩)
      (fun i => if i = 2 then ⟨-1, 1/100, 1/100, 0⟩ else ⟨1, 1/100, 1/100, 0⟩) with t := ⟨1000, 1000, 1000, 2⟩ }

/-- Non-vacuity of C70: flat triangles, both builders; the lanes end at 3, 3, 1000, 2. -/
example : exPacket.WellFormed ∧
    (∀ i, exPacket.directionX.get i ≠ 0 ∧ exPacket.directionY.get i ≠ 0 ∧ exPacket.directionZ.get i ≠ 0) ∧
    (builtTree ((meshScene threeTris (some 3)).constructLocb (List.range 3) 2 5)).map (fun x =>
      ((x.1.forIndicesPacket (meshCb4 threeTris (Vec4.splat 0)) 9 exPacket).items,
       (x.1.forIndicesPacket (meshCb4 threeTris (Vec4.splat 0)) 9 exPacket).ray.t)) = some ([2, 0, 1], ⟨3, 3, 1000, 2⟩) ∧
    (builtTree ((meshScene threeTris (some 3)).constructBinnedSah (List.range 3) (List.replicate 10 0))).map (fun x =>
      (x.1.forIndicesPacket (meshCb4 threeTris (Vec4.splat 0)) 9 exPacket).ray.t) = some ⟨3, 3, 1000, 2⟩ := by
  unfold RayPacket4.WellFormed
  refine ⟨?_, ?_, ?_, ?_⟩ <;> decide +kernel

end Rtbvh
