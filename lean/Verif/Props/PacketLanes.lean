import Verif.Props.PacketQuery
/- Properties C35 for the other three box tests (exact arithmetic) and C71: packet traversal against single rays. -/
namespace Rtbvh
open FloatOps Aabb

theorem axis_iff {lo hi o d s : Rat} (hd : d ≠ 0) (hv : lo ≤ hi) :
    ((lo < o + s * d ∧ o + s * d < hi) ↔
      Min.min ((lo - o) * (1 / d)) ((hi - o) * (1 / d)) < s ∧ s < Max.max ((lo - o) * (1 / d)) ((hi - o) * (1 / d))) ∧
    ((lo ≤ o + s * d ∧ o + s * d ≤ hi) ↔
      Min.min ((lo - o) * (1 / d)) ((hi - o) * (1 / d)) ≤ s ∧ s ≤ Max.max ((lo - o) * (1 / d)) ((hi - o) * (1 / d))) := by
  simp only [mul_one_div]
  rcases lt_or_gt_of_ne hd with hn | hn
  · have hle : (hi - o) / d ≤ (lo - o) / d := by
      rw [div_le_div_right_of_neg hn]; linarith
    rw [min_eq_right hle, max_eq_left hle, div_lt_iff_of_neg hn, lt_div_iff_of_neg hn, div_le_iff_of_neg hn,
      le_div_iff_of_neg hn]
    constructor <;> constructor <;> rintro ⟨h1, h2⟩ <;> constructor <;> linarith
  · have hle : (lo - o) / d ≤ (hi - o) / d := by
      rw [div_le_div_iff_of_pos_right hn]; linarith
    rw [min_eq_left hle, max_eq_right hle, div_lt_iff₀ hn, lt_div_iff₀ hn, div_le_iff₀ hn, le_div_iff₀ hn]
    constructor <;> constructor <;> rintro ⟨h1, h2⟩ <;> constructor <;> linarith

theorem valid_rat {a : Aabb Rat} (h : a.Valid) : a.min.x ≤ a.max.x ∧ a.min.y ≤ a.max.y ∧ a.min.z ≤ a.max.z :=
  ⟨rat_le.1 h.1, rat_le.1 h.2.1, rat_le.1 h.2.2⟩

theorem lane_contains {a : Aabb Rat} (hv : a.Valid) {p : RayPacket4 Rat} (hw : p.WellFormed) {i : Fin 4}
    (hd : p.directionX.get i ≠ 0 ∧ p.directionY.get i ≠ 0 ∧ p.directionZ.get i ≠ 0) (s : Rat) :
    (a.contains (p.pointAt i s) = true ↔ (a.lane4 p i).1 < s ∧ s < (a.lane4 p i).2) ∧
    (a.contains (p.pointAt i s) = true ↔ (quadLane4 a p i).1 < s ∧ s < (quadLane4 a p i).2) := by
  obtain ⟨vx, vy, vz⟩ := valid_rat hv
  obtain ⟨ex, ey, ez⟩ := packet_inv hw i
  have ix := (axis_iff (o := p.originX.get i) (s := s) hd.1 vx).1
  have iy := (axis_iff (o := p.originY.get i) (s := s) hd.2.1 vy).1
  have iz := (axis_iff (o := p.originZ.get i) (s := s) hd.2.2 vz).1
  rw [contains_rat]
  unfold RayPacket4.pointAt
  simp only [ix, iy, iz]
  constructor
  · unfold lane4
    simp only [rat_vmin, rat_vmax, ex, ey, ez, max_lt_iff, lt_min_iff]
    exact ⟨fun ⟨⟨a, b⟩, ⟨c, d⟩, e, f⟩ => ⟨⟨a, c, e⟩, b, d, f⟩, fun ⟨⟨a, c, e⟩, b, d, f⟩ => ⟨⟨a, b⟩, ⟨c, d⟩, e, f⟩⟩
  · unfold quadLane4
    simp only [rat_vmin, rat_vmax, ex, ey, ez, max_lt_iff, lt_min_iff]
    exact ⟨fun ⟨⟨a, b⟩, ⟨c, d⟩, e, f⟩ => ⟨⟨⟨a, c⟩, e⟩, ⟨b, d⟩, f⟩, fun ⟨⟨⟨a, c⟩, e⟩, ⟨b, d⟩, f⟩ => ⟨⟨a, b⟩, ⟨c, d⟩, e, f⟩⟩

/-- C35 for packets, exact arithmetic: a lane of `Aabb::intersect4` hits a valid box exactly if the lane's ray is
strictly inside the box at some parameter strictly between 0 and the lane's `t` (for `t > 0`), the whole call returns
`None` exactly if no lane hits, and a lane of the quad node's packet test hits exactly if the lane is strictly inside
at some parameter below `t` (possibly negative). -/
theorem C35_packet_exact {a : Aabb Rat} (hv : a.Valid) {p : RayPacket4 Rat} (hw : p.WellFormed)
    (hd : ∀ i, p.directionX.get i ≠ 0 ∧ p.directionY.get i ≠ 0 ∧ p.directionZ.get i ≠ 0) (ht : ∀ i, 0 < p.t.get i) :
    (∀ i, a.mask4 p i = true ↔ ∃ s, 0 < s ∧ s < p.t.get i ∧ a.contains (p.pointAt i s) = true) ∧
    ((a.intersect4 p).isSome = true ↔ ∃ i s, 0 < s ∧ s < p.t.get i ∧ a.contains (p.pointAt i s) = true) ∧
    (∀ i, quadTest4 a p i = true ↔ ∃ s, s < p.t.get i ∧ a.contains (p.pointAt i s) = true) := by
  have key : ∀ i, a.mask4 p i = true ↔ ∃ s, 0 < s ∧ s < p.t.get i ∧ a.contains (p.pointAt i s) = true := by
    intro i
    have hl := fun s => (lane_contains hv hw (hd i) s).1
    simp only [hl]
    unfold mask4
    simp only [Bool.and_eq_true, rat_ge_iff, rat_zero, rat_lt]
    constructor
    · rintro ⟨⟨h1, h2⟩, h3⟩
      obtain ⟨s, hs1, hs2⟩ := exists_between (show Max.max 0 (a.lane4 p i).1 < Min.min (p.t.get i) (a.lane4 p i).2 from
        max_lt (lt_min (ht i) h1) (lt_min h3 h2))
      rw [max_lt_iff] at hs1; rw [lt_min_iff] at hs2
      exact ⟨s, hs1.1, hs2.1, hs1.2, hs2.2⟩
    · rintro ⟨s, h1, h2, h3, h4⟩
      exact ⟨⟨h1.trans h4, h3.trans h4⟩, h3.trans h2⟩
  refine ⟨key, ?_, fun i => ?_⟩
  · unfold intersect4
    split
    · rename_i h
      obtain ⟨i, hi⟩ := (Vec4.any_iff _).1 h
      rw [Vec4.get_ofFn] at hi
      exact ⟨fun _ => ⟨i, (key i).1 hi⟩, fun _ => rfl⟩
    · rename_i h
      refine ⟨fun hh => by simp at hh, fun ⟨i, hi⟩ => absurd ((Vec4.any_iff _).2 ⟨i, ?_⟩) h⟩
      rw [Vec4.get_ofFn]; exact (key i).2 hi
  · have hl := fun s => (lane_contains hv hw (hd i) s).2
    simp only [hl]
    unfold quadTest4
    simp only [Bool.and_eq_true, rat_ge_iff, rat_lt]
    constructor
    · rintro ⟨h1, h2⟩
      obtain ⟨s, hs1, hs2⟩ := exists_between (lt_min h2 h1)
      rw [lt_min_iff] at hs2
      exact ⟨s, hs2.1, hs1, hs2.2⟩
    · rintro ⟨s, h2, h3, h4⟩
      exact ⟨h3.trans h4, h3.trans h2⟩

/-- C35 for packets, the distances: where `Aabb::intersect4` returns distances, the one of every lane whose ray meets the
closed box at all is the parameter at which that ray enters the box (possibly negative), in exact arithmetic. -/
theorem C35_packet_distance {a : Aabb Rat} (hv : a.Valid) {p : RayPacket4 Rat} (hw : p.WellFormed)
    (hd : ∀ i, p.directionX.get i ≠ 0 ∧ p.directionY.get i ≠ 0 ∧ p.directionZ.get i ≠ 0) (ts : Vec4 Rat)
    (h : a.intersect4 p = some ts) (i : Fin 4) (hi : ∃ s, a.Has (p.pointAt i s)) :
    a.Has (p.pointAt i (ts.get i)) ∧ ∀ s, a.Has (p.pointAt i s) → ts.get i ≤ s := by
  obtain ⟨vx, vy, vz⟩ := valid_rat hv
  obtain ⟨ex, ey, ez⟩ := packet_inv hw i
  have key : ∀ s, a.Has (p.pointAt i s) ↔ (a.lane4 p i).1 ≤ s ∧ s ≤ (a.lane4 p i).2 := by
    intro s
    have ix := (axis_iff (o := p.originX.get i) (s := s) (hd i).1 vx).2
    have iy := (axis_iff (o := p.originY.get i) (s := s) (hd i).2.1 vy).2
    have iz := (axis_iff (o := p.originZ.get i) (s := s) (hd i).2.2 vz).2
    rw [has_rat]
    unfold RayPacket4.pointAt lane4
    simp only [ix, iy, iz, rat_vmin, rat_vmax, ex, ey, ez, max_le_iff, le_min_iff]
    exact ⟨fun ⟨⟨a, b⟩, ⟨c, d⟩, e, f⟩ => ⟨⟨a, c, e⟩, b, d, f⟩, fun ⟨⟨a, c, e⟩, b, d, f⟩ => ⟨⟨a, b⟩, ⟨c, d⟩, e, f⟩⟩
  have e : ts.get i = (a.lane4 p i).1 := by
    unfold intersect4 at h
    split at h
    · cases h; rw [Vec4.get_ofFn]
    · cases h
  obtain ⟨s, hs⟩ := hi
  rw [key] at hs
  refine ⟨(key _).2 ⟨by rw [e], by rw [e]; exact hs.1.trans hs.2⟩, fun s hs => ?_⟩
  rw [e]; exact ((key s).1 hs).1

/-- C35 for the single-ray test of quad nodes, exact arithmetic: a slot is hit exactly if the ray is in the closed box at
some parameter below `ray.t` (possibly negative: `t_min` is not looked at). -/
theorem C35_quad_exact {a : Aabb Rat} (hv : a.Valid) {r : Ray Rat} (hw : r.WellFormed) (hd : r.direction.NonZero) :
    quadTest a r = true ↔ ∃ s, s < r.t ∧ a.Has (r.getPointAt s) := by
  obtain ⟨vx, vy, vz⟩ := valid_rat hv
  have key : ∀ s, a.Has (r.getPointAt s) ↔ (quadLane a r).1 ≤ s ∧ s ≤ (quadLane a r).2 := by
    intro s
    obtain ⟨h1, _⟩ := hw
    have ix := (axis_iff (o := r.origin.x) (s := s) (nonZero_rat.1 hd.1) vx).2
    have iy := (axis_iff (o := r.origin.y) (s := s) (nonZero_rat.1 hd.2.1) vy).2
    have iz := (axis_iff (o := r.origin.z) (s := s) (nonZero_rat.1 hd.2.2) vz).2
    have inv : ∀ d : Rat, FloatOps.div (FloatOps.one : Rat) d = 1 / d := by intro d; rw [rat_one]; rfl
    rw [has_rat]
    show ((a.min.x ≤ r.origin.x + s * r.direction.x ∧ r.origin.x + s * r.direction.x ≤ a.max.x) ∧
      (a.min.y ≤ r.origin.y + s * r.direction.y ∧ r.origin.y + s * r.direction.y ≤ a.max.y) ∧
      (a.min.z ≤ r.origin.z + s * r.direction.z ∧ r.origin.z + s * r.direction.z ≤ a.max.z)) ↔ _
    rw [ix, iy, iz]
    unfold quadLane
    simp only [rat_vmin, rat_vmax, h1, recip3, Vec3.div, Vec3.map2, Vec3.splat, inv]
    constructor
    · rintro ⟨⟨a, b⟩, ⟨c, d⟩, e, f⟩; exact ⟨max_le a (max_le c e), le_min b (le_min d f)⟩
    · rintro ⟨h1, h2⟩
      obtain ⟨a, c⟩ := max_le_iff.1 h1
      obtain ⟨c, e⟩ := max_le_iff.1 c
      obtain ⟨b, d⟩ := le_min_iff.1 h2
      obtain ⟨d, f⟩ := le_min_iff.1 d
      exact ⟨⟨a, b⟩, ⟨c, d⟩, e, f⟩
  simp only [key]
  unfold quadTest
  rw [Bool.and_eq_true, rat_lt]
  constructor
  · rintro ⟨h1, h2⟩; exact ⟨_, h2, le_rfl, rat_le.1 h1⟩
  · rintro ⟨s, h1, h2, h3⟩; exact ⟨rat_le.2 (h2.trans h3), lt_of_le_of_lt h2 h1⟩

/-! C71 -/

/-- C71, the part that holds: exact arithmetic, any hierarchy whose boxes contain the primitives' boxes padded by 1e-4
(what both builders make).  Packet traversal by a caller that leaves the packet alone yields every stored primitive
whose own box some lane's ray meets at a parameter in `[0, t)`, flat boxes included.  Missing: rounding, where the
padding can be absorbed (`C71_packet_misses_flat`). -/
theorem C71_packet_offers_partial (b : Bvh Rat) (T : BTree Rat) (h : b.Denotes T) (hdep : T.depth ≤ 31)
    (boxes : List (Aabb Rat)) (hb : T.Bounds b.indices (padAt boxes)) (pk : RayPacket4 Rat) (hw : pk.WellFormed)
    (hd : ∀ i, pk.directionX.get i ≠ 0 ∧ pk.directionY.get i ≠ 0 ∧ pk.directionZ.get i ≠ 0) (fuel : Nat)
    (hf : T.rounds < fuel) (p : Nat) (hp : p ∈ T.ids b.indices) (i : Fin 4) (s : Rat) (h0 : 0 ≤ s) (ht : s < pk.t.get i)
    (hs : (boxAt boxes p).Has (pk.pointAt i s)) :
    p ∈ (b.forIndicesPacket (fun q _ => (q, false)) fuel pk).items := by
  have hc := padAt_contains hs
  have hlow : ∀ (q : RayPacket4 Rat) (id : Nat), q.Lowered q ∧ false = false := fun q _ => ⟨RayPacket4.Lowered.refl q, rfl⟩
  obtain ⟨_, _, _, hcomp⟩ := C23_packet_complete b T h hdep _ hb pk rfl (fun q _ => (q, false)) hlow fuel hf
  have hray : (b.forIndicesPacket (fun q _ => (q, false)) fuel pk).ray = pk := by
    rw [C23_packet_traversal_refines b T h hdep pk rfl _ fuel hf]
    exact visit_inv (Inv := fun q => q = pk) (fun r x hr => hr) T pk rfl
  refine hcomp p hp (valid_of_contains hc) i (treeNoNaN_rat _ _ _ _) (noNaN_rat _ _ _) ?_
  rw [hray]
  exact (mask4_of_contains hw (hd i) h0 ht hc).1

/-- Three flat triangles side by side in the plane `z = 3000`. -/
def farTris : List (Triangle F32) :=
  [⟨⟨lit 0 0, lit 0 0, lit 3000 0⟩, ⟨lit 4 0, lit 0 0, lit 3000 0⟩, ⟨lit 0 0, lit 4 0, lit 3000 0⟩⟩,
   ⟨⟨lit 10 0, lit 0 0, lit 3000 0⟩, ⟨lit 14 0, lit 0 0, lit 3000 0⟩, ⟨lit 10 0, lit 4 0, lit 3000 0⟩⟩,
   ⟨⟨lit 20 0, lit 0 0, lit 3000 0⟩, ⟨lit 24 0, lit 0 0, lit 3000 0⟩, ⟨lit 20 0, lit 4 0, lit 3000 0⟩⟩]

/-- A ray straight at the first triangle, and the packet of four copies of it. -/
def farRay : Ray F32 := Ray.new ⟨one, one, zero⟩ ⟨lit 1 (-5), lit 1 (-5), one⟩
def farPacket : RayPacket4 F32 := RayPacket4.new (fun _ => ⟨one, one, zero, one⟩) (fun _ => ⟨lit 1 (-5), lit 1 (-5), one, zero⟩)

/-- C71 is false in binary32.  Three axis-aligned triangles at `z = 3000`, built by the clustering builder: tracing the ray
finds the first triangle at distance 3000; tracing the packet of four copies of the same ray is offered no primitive at
all and finds nothing (the padding of 1e-4 is absorbed at 3000, the node boxes stay flat, and the packet test wants
`t_max > t_min` strictly). -/
theorem C71_packet_misses_flat : ∃ (bvh : Bvh F32) (T : BTree F32),
    (meshScene farTris none).Legal (List.range 3) ∧
    (meshScene farTris none).constructLocb (List.range 3) 2 5 = .ok (some (some bvh)) ∧ Unfolds bvh.nodes 0 T ∧
    (∀ i, (farPacket.ray i) = farRay) ∧
    (bvh.forIndices (meshCb farTris) 100 farRay).ray.t = lit 3000 0 ∧
    (bvh.forIndicesPacket (meshCb4 farTris (Vec4.splat zero)) 100 farPacket).ending = .finished ∧
    (bvh.forIndicesPacket (meshCb4 farTris (Vec4.splat zero)) 100 farPacket).items = [] ∧
    (bvh.forIndicesPacket (meshCb4 farTris (Vec4.splat zero)) 100 farPacket).ray = farPacket := by
  have key : (builtTree ((meshScene farTris none).constructLocb (List.range 3) 2 5)).map (fun x =>
      (decide ((x.1.forIndices (meshCb farTris) 100 farRay).ray.t = lit 3000 0),
       (x.1.forIndicesPacket (meshCb4 farTris (Vec4.splat zero)) 100 farPacket).ending,
       (x.1.forIndicesPacket (meshCb4 farTris (Vec4.splat zero)) 100 farPacket).items,
       decide ((x.1.forIndicesPacket (meshCb4 farTris (Vec4.splat zero)) 100 farPacket).ray = farPacket))) =
      some (true, .finished, [], true) := by decide +kernel
  rw [Option.map_eq_some_iff] at key
  obtain ⟨⟨bvh, T⟩, h1, h2⟩ := key
  obtain ⟨e, hU⟩ := builtTree_some h1
  simp only [Prod.mk.injEq, decide_eq_true_eq] at h2
  exact ⟨bvh, T, meshScene_legal _ _ (by decide) (by decide), e, hU, by decide +kernel, h2.1, h2.2.1, h2.2.2.1, h2.2.2.2⟩

/-- Non-vacuity of `C35_packet_exact`, `C35_quad_exact`: a unit cube, hit by three lanes and missed by the one turned
away; the quad test also accepts boxes behind the origin. -/
example : (⟨⟨0, 0, 0⟩, 0, ⟨1, 1, 1⟩, 0⟩ : Aabb Rat).Valid ∧ exPacket.WellFormed ∧ (∀ i, 0 < exPacket.t.get i) ∧
    (List.finRange 4).map (fun i => Aabb.mask4 ⟨⟨0, 0, 0⟩, 0, ⟨1, 1, 1⟩, 0⟩ exPacket i) = [true, true, false, true] ∧
    (List.finRange 4).map (fun i => quadTest4 ⟨⟨0, 0, 0⟩, 0, ⟨1, 1, 1⟩, 0⟩ exPacket i) = [true, true, true, true] ∧
    quadTest ⟨⟨0, 0, 0⟩, 0, ⟨1, 1, 1⟩, 0⟩ exRay = true := by
  unfold RayPacket4.WellFormed Aabb.Valid Vec3.Le
  refine ⟨?_, ?_, ?_, ?_, ?_, ?_⟩ <;> decide +kernel

/-- Non-vacuity of `C35_packet_distance`: the same cube; the lane turned away gets its (negative) entry parameter too. -/
example : Aabb.intersect4 ⟨⟨0, 0, 0⟩, 0, ⟨1, 1, 1⟩, 0⟩ exPacket =
    some (Vec4.ofFn fun i => (Aabb.lane4 ⟨⟨0, 0, 0⟩, 0, ⟨1, 1, 1⟩, 0⟩ exPacket i).1) ∧
    (Aabb.lane4 ⟨⟨0, 0, 0⟩, 0, ⟨1, 1, 1⟩, 0⟩ exPacket 2).1 < 0 := by decide +kernel

/-- Non-vacuity of `C71_packet_offers_partial`: flat triangles, built tree, lane 0 meets the flat box of primitive 1. -/
example : (builtTree ((meshScene threeTris (some 3)).constructLocb (List.range 3) 2 5)).map (fun x =>
      (x.1.forIndicesPacket (fun q _ => (q, false)) 100 exPacket).items) = some [2, 0, 1] ∧
    (boxAt ((meshScene threeTris (some 3)).boxes (List.range 3)) 1).Has (exPacket.pointAt 0 3) := by
  unfold Aabb.Has
  refine ⟨?_, ?_⟩ <;> decide +kernel

end Rtbvh
