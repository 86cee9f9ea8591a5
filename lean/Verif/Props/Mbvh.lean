import Verif.Proofs.MbvhMain
import Verif.Props.Binned
import Verif.Props.Exact
/- Properties of the 4-wide BVH: C26-C30, C32, and the `Mbvh` parts of C24, C25, C36, C54, C56. -/
namespace Rtbvh
open FloatOps Aabb
variable {F : Type} [FloatOps F]

/-- What the binned builder returns meets the requirements of `Mbvh::construct`. -/
theorem C26_binned_compact (b : Builder F) (order ks : List Nat) (h : b.Legal order) (bvh : Bvh F)
    (e : b.constructBinnedSah order ks = .ok (some (some bvh))) :
    ∃ T, bvh.Compact T ∧ T.ids bvh.indices = bvh.indices ∧ T.depth ≤ 64 := by
  obtain ⟨T, P, _, hT, H⟩ := builder_main h
  obtain ⟨s, _, _, h3, h4⟩ := H ks
  have hp : s.pending = [] := by
    by_cases hp : s.pending = []
    · exact hp
    · rw [h4 hp] at e; cases e
  obtain ⟨e', hP, hU, hn⟩ := h3 hp
  rw [e'] at e; cases e
  have hids := hT.ids [] [] rfl
  simp only [List.nil_append, List.append_nil] at hids
  have hlen := hT.perm.length_eq
  rw [List.length_range] at hlen
  have hsm := h.small
  have hR := hT.rangesIn P (by rw [List.length_range]; omega)
  have h1 := hT.size
  have h2 := hT.leaves
  rw [List.length_range] at h2
  have hI : (binnedFinish s).indices = P := hP
  rw [hI]
  refine ⟨T, ⟨⟨hU, by rw [hP]; exact hR⟩, hn.symm, ?_, by omega, by rw [hI]; omega⟩, hids, hT.depth⟩
  rintro bb f c rfl
  have hl := congrArg List.length hids
  simp only [BTree.ids, BTree.rangeIds, List.length_take, List.length_drop] at hl
  simp only [BTree.RangesIn] at hR
  have := List.length_pos_iff.2 h.nonempty
  omega

/-- C26. `Mbvh::construct` on any compact well-formed BVH (as the builders return) does not panic (given call stack
for the depth of the tree); the quad nodes form a tree with exactly the leaf ranges of the binary tree, in the same
order; there are at most as many quad nodes as binary nodes; binary nodes and index array are kept. -/
theorem C26_construct (b : Bvh F) (T : BTree F) (h : b.Compact T) (fuel : Nat) (hf : T.depth < fuel) :
    ∃ (q : Mbvh F) (Q : QTree F), Mbvh.construct fuel b = some q ∧ q.Denotes Q ∧ Q.ranges = T.ranges ∧
      Q.ids q.primIndices = T.ids b.indices ∧ q.mNodes.length = Q.quads ∧ q.mNodes.length ≤ b.nodes.length ∧
      q.nodes = b.nodes ∧ q.primIndices = b.indices := by
  obtain ⟨q, e, hd, h1, h2, h3, h4⟩ := construct_main b T h fuel hf
  exact ⟨q, T.toQuad, e, hd, toQuad_ranges T, by rw [h2, toQuad_ids], h3, h4, h1, h2⟩

/-- C26 after a binned build: call stack depth 65 is enough and every primitive is in exactly one leaf slot, once. -/
theorem C26_construct_after_binned (b : Builder F) (order ks : List Nat) (h : b.Legal order) (bvh : Bvh F)
    (e : b.constructBinnedSah order ks = .ok (some (some bvh))) :
    ∃ (q : Mbvh F) (Q : QTree F), Mbvh.construct 65 bvh = some q ∧ q.Denotes Q ∧
      q.primIndices.Perm (List.range b.primitives.length) ∧
      ∀ p < b.primitives.length, (Q.ids q.primIndices).count p = 1 := by
  obtain ⟨T, hc, hids, hd⟩ := C26_binned_compact b order ks h bvh e
  obtain ⟨hp, _⟩ := C03_binned_partition b order ks h bvh e
  obtain ⟨q, Q, e1, e2, _, e4, _, _, _, e8⟩ := C26_construct bvh T hc 65 (by omega)
  refine ⟨q, Q, e1, e2, by rw [e8]; exact hp, fun p hpn => ?_⟩
  rw [e4, hids, hp.count_eq, List.nodup_range.count, if_pos (by simpa using hpn)]

/-- C27. If every binary node's box contains the boxes of the primitives below it, then the box stored in each slot of
each quad node contains the box of every primitive reachable through that slot. -/
theorem C27_slot_bounds (b : Bvh F) (T : BTree F) (h : b.Compact T) (fuel : Nat) (hf : T.depth < fuel)
    (boxes : Nat → Aabb F) (hb : T.Bounds b.indices boxes) :
    ∃ (q : Mbvh F) (Q : QTree F), Mbvh.construct fuel b = some q ∧ q.Denotes Q ∧ Q.Bounds q.primIndices boxes := by
  obtain ⟨q, e, hd, h1, h2, h3, h4⟩ := construct_main b T h fuel hf
  exact ⟨q, T.toQuad, e, hd, by rw [h2]; exact toQuad_forall (C := fun a p => (boxes p).Within a) hb⟩

/-! Traversal. -/

/-- C28 (general caller). On every well-formed `Mbvh` whose traversal needs at most 32 stack entries (`stackNeed`; quad
depth at most 10 is enough, `C29_quad_depth`) the `for` loop over
`traverse_iter_indices`, for every ray (NaN included) and every caller, terminates and does what the recursive ordered
traversal of the quad tree does: same items, same final ray, no failure.  The same for packets. -/
theorem C28_traversal_refines (q : Mbvh F) (Q : QTree F) (h : q.Denotes Q) (hd : Q.stackNeed ≤ 32) (fuel : Nat)
    (hf : Q.rounds ≤ fuel) :
    (∀ cb ray, q.forIndices cb fuel ray = Q.visit (BTree.rangeIds q.primIndices) quadHit cb ray) ∧
    (∀ cb pk, q.forIndicesPacket cb fuel pk = Q.visit (BTree.rangeIds q.primIndices) quadHit4 cb pk) :=
  ⟨fun _ ray => qdrive_fresh quadHit_perm (fun _ _ => (firstSome_some _).symm) h.unfolds h.unfolds.root_isQuad h.ranges
    ray hd hf,
   fun _ pk => qdrive_fresh quadHit4_perm (fun _ _ => (firstSome_some _).symm) h.unfolds h.unfolds.root_isQuad h.ranges
    pk hd hf⟩

/-- C29 (safe part). `stackNeed` at most 32: no stack write out of bounds, no panic, termination; for all rays, packets
and callers. -/
theorem C29_stack_safe (q : Mbvh F) (Q : QTree F) (h : q.Denotes Q) (hd : Q.stackNeed ≤ 32) (fuel : Nat)
    (hf : Q.rounds ≤ fuel) :
    (∀ cb ray, (q.forIndices cb fuel ray).ending = .finished ∨ (q.forIndices cb fuel ray).ending = .stopped) ∧
    (∀ cb pk, (q.forIndicesPacket cb fuel pk).ending = .finished ∨
      (q.forIndicesPacket cb fuel pk).ending = .stopped) := by
  obtain ⟨h1, h2⟩ := C28_traversal_refines q Q h hd fuel hf
  exact ⟨fun cb ray => by rw [h1]; exact Q.visit_ending ray, fun cb pk => by rw [h2]; exact Q.visit_ending pk⟩

/-- C29: quad depth at most 10 is enough. -/
theorem C29_quad_depth (Q : QTree F) (hd : Q.depth ≤ 10) : Q.stackNeed ≤ 32 := by
  have := Q.stackNeed_le; omega

/-- C29: a binary BVH of depth at most 22, or with at most 65 leaves, collapses to a quad tree within the limit. -/
theorem C29_binary_depth (b : Bvh F) (T : BTree F) (h : b.Compact T) (hd : T.depth ≤ 22 ∨ T.leaves ≤ 65) (fuel : Nat)
    (hf : T.depth < fuel) :
    ∃ (q : Mbvh F) (Q : QTree F), Mbvh.construct fuel b = some q ∧ q.Denotes Q ∧ Q.stackNeed ≤ 32 := by
  obtain ⟨q, e, hq, _⟩ := construct_main b T h fuel hf
  refine ⟨q, T.toQuad, e, hq, ?_⟩
  rcases hd with hd | hd
  · refine C29_quad_depth _ ?_
    by_cases h1 : 1 ≤ T.depth
    · have := toQuad_depth' T h1; omega
    · have := toQuad_depth T; omega
  · have := toQuad_need T; omega

section lawful
variable [LawfulFloat F]

/-- C36 for quad nodes: if box `a` lies in box `b` and the test of `MbvhNode::intersect` passes on `a` (no NaN), it
passes on `b`; the same for one lane of `MbvhNode::intersect4`. -/
theorem C36_quad_monotone {a b : Aabb F} (hab : a.Within b) (hv : a.Valid) :
    (∀ r : Ray F, a.NoNaN r.origin r.invDirection → b.NoNaN r.origin r.invDirection → quadTest a r = true →
      quadTest b r = true) ∧
    (∀ (p : RayPacket4 F) (i : Fin 4), a.NoNaN (p.originOf i) (p.invOf i) → b.NoNaN (p.originOf i) (p.invOf i) →
      quadTest4 a p i = true → quadTest4 b p i = true) :=
  ⟨fun _ na nb h => quadTest_mono hab hv na nb h, fun _ _ na nb h => quadTest4_mono hab hv na nb h⟩

theorem quadTest_lowered {a : Aabb F} {r r' : Ray F} (h : r.Lowered r') (hp : quadTest a r' = true) :
    quadTest a r = true := by
  obtain ⟨⟨t, rfl⟩, hle⟩ := h
  unfold quadTest at hp ⊢
  rw [Bool.and_eq_true] at hp ⊢
  refine ⟨hp.1, ?_⟩
  rcases hle with e | e
  · rw [← e]; exact hp.2
  · exact lt_of_lt_of_le' hp.2 e

theorem quadTest4_lowered {a : Aabb F} {r r' : RayPacket4 F} {i : Fin 4} (h : r.Lowered r')
    (hp : quadTest4 a r' i = true) : quadTest4 a r i = true := by
  obtain ⟨⟨t, rfl⟩, hle⟩ := h
  unfold quadTest4 at hp ⊢
  rw [Bool.and_eq_true] at hp ⊢
  refine ⟨hp.1, ?_⟩
  rcases hle i with e | e
  · rw [← e]; exact hp.2
  · exact lt_of_lt_of_le' hp.2 e

/-- C28 for single primitives, rays: what is needed is that every box above the primitive contains its own box. -/
theorem C28_ray_offered (q : Mbvh F) (Q : QTree F) (h : q.Denotes Q) (hd : Q.stackNeed ≤ 32)
    (ray : Ray F) (cb : Ray F → Nat → Ray F × Bool)
    (hcb : ∀ r id, r.Lowered (cb r id).1 ∧ (cb r id).2 = false) (fuel : Nat) (hf : Q.rounds ≤ fuel) :
    let run := q.forIndices cb fuel ray
    run.ending = .finished ∧ ray.Lowered run.ray ∧
    (∀ p, run.items.count p ≤ (Q.ids q.primIndices).count p) ∧
    ∀ p ∈ Q.ids q.primIndices, ∀ box : Aabb F, box.Valid → box.NoNaN ray.origin ray.invDirection →
      (Q.Forall q.primIndices fun a ids => p ∈ ids → box.Within a ∧ a.NoNaN ray.origin ray.invDirection) →
      quadTest box run.ray = true → p ∈ run.items := by
  intro run
  have hrun : run = Q.visit (BTree.rangeIds q.primIndices) quadHit cb ray :=
    (C28_traversal_refines q Q h hd fuel hf).1 cb ray
  have hfin : run.ending = .finished := by rw [hrun]; exact Q.visit_finished (fun r x => (hcb r x).2) ray
  have hlow : ray.Lowered run.ray := by
    rw [hrun]; exact Q.visit_rel Ray.Lowered.refl Ray.Lowered.trans (fun r x => (hcb r x).1) ray
  refine ⟨hfin, hlow, fun p => ?_, fun p hp box hv hpN hb hhit => ?_⟩
  · rw [hrun]
    refine Nat.le_trans (Q.visit_count_le (Inv := fun _ => True) (fun _ _ _ => trivial) (pass := fun _ => true)
      quadHit_perm (fun _ _ _ _ _ => rfl) p ray trivial) ?_
    rw [Q.root_reach h.unfolds.root_isQuad]
    exact Q.reach_count_le_ids _ _ _
  · have hge := Q.visit_count_ge_final (idx := q.primIndices) Ray.Lowered.refl Ray.Lowered.trans
      (fun r x => (hcb r x).1) (pass := fun a => quadTest a run.ray) (fin := run.ray) (hit := quadHit) quadHit_perm
      (by
        intro bs r s hr hpass
        show (bs.map fun b => quadTest b r).get s = true
        rw [Vec4.get_map]
        exact quadTest_lowered hr hpass) p ray (by rw [← hrun]; exact hfin)
      (by rw [← hrun]; exact Ray.Lowered.refl _)
    rw [Q.root_reach h.unfolds.root_isQuad, ← hrun] at hge
    have hmem : p ∈ Q.reach q.primIndices (fun a => quadTest a run.ray) := by
      obtain ⟨⟨t, e⟩, _⟩ := hlow
      refine Q.mem_reach_one (hb.mono fun a ids h hq => ?_) hp
      rw [e] at hhit ⊢
      exact (C36_quad_monotone (h hq).1 hv).1 _ hpN (h hq).2 hhit
    exact List.count_pos_iff.1 (Nat.lt_of_lt_of_le (List.count_pos_iff.2 hmem) hge)

/-- C28. Ray traversal of an `Mbvh` whose traversal needs at most 32 stack entries and whose slot boxes contain the primitives' boxes, by a
caller that only lowers `ray.t` and never breaks: it finishes, yields every stored id at most as often as stored, and
yields every stored primitive whose own box passes the quad-node test with the final (smallest) `ray.t`, hence every
primitive whose box passes for the current and all smaller `t`. -/
theorem C28_ray_complete (q : Mbvh F) (Q : QTree F) (h : q.Denotes Q) (hd : Q.stackNeed ≤ 32) (boxes : Nat → Aabb F)
    (hb : Q.Bounds q.primIndices boxes) (ray : Ray F) (cb : Ray F → Nat → Ray F × Bool)
    (hcb : ∀ r id, r.Lowered (cb r id).1 ∧ (cb r id).2 = false) (fuel : Nat) (hf : Q.rounds ≤ fuel) :
    let run := q.forIndices cb fuel ray
    run.ending = .finished ∧ ray.Lowered run.ray ∧
    (∀ p, run.items.count p ≤ (Q.ids q.primIndices).count p) ∧
    (Q.NoNaN q.primIndices ray.origin ray.invDirection →
      ∀ p ∈ Q.ids q.primIndices, (boxes p).Valid → (boxes p).NoNaN ray.origin ray.invDirection →
        quadTest (boxes p) run.ray = true → p ∈ run.items) := by
  obtain ⟨h1, h2, h3, h4⟩ := C28_ray_offered q Q h hd ray cb hcb fuel hf
  exact ⟨h1, h2, h3, fun hN p hp hv hpN hhit =>
    h4 p hp _ hv hpN ((hb.and hN).mono fun a ids h hq =>
      ⟨h.1 p hq, h.2 (List.ne_nil_of_mem hq)⟩) hhit⟩

/-- C28 for single primitives, packets: what is needed is that every box above the primitive contains its own box. -/
theorem C28_packet_offered (q : Mbvh F) (Q : QTree F) (h : q.Denotes Q) (hd : Q.stackNeed ≤ 32)
    (pk : RayPacket4 F) (cb : RayPacket4 F → Nat → RayPacket4 F × Bool)
    (hcb : ∀ r id, r.Lowered (cb r id).1 ∧ (cb r id).2 = false) (fuel : Nat) (hf : Q.rounds ≤ fuel) :
    let run := q.forIndicesPacket cb fuel pk
    run.ending = .finished ∧ pk.Lowered run.ray ∧
    (∀ p, run.items.count p ≤ (Q.ids q.primIndices).count p) ∧
    ∀ i, ∀ p ∈ Q.ids q.primIndices, ∀ box : Aabb F, box.Valid → box.NoNaN (pk.originOf i) (pk.invOf i) →
      (Q.Forall q.primIndices fun a ids => p ∈ ids → box.Within a ∧ a.NoNaN (pk.originOf i) (pk.invOf i)) →
      quadTest4 box run.ray i = true → p ∈ run.items := by
  intro run
  have hrun : run = Q.visit (BTree.rangeIds q.primIndices) quadHit4 cb pk :=
    (C28_traversal_refines q Q h hd fuel hf).2 cb pk
  have hfin : run.ending = .finished := by rw [hrun]; exact Q.visit_finished (fun r x => (hcb r x).2) pk
  have hlow : pk.Lowered run.ray := by
    rw [hrun]; exact Q.visit_rel RayPacket4.Lowered.refl RayPacket4.Lowered.trans (fun r x => (hcb r x).1) pk
  refine ⟨hfin, hlow, fun p => ?_, fun i p hp box hv hpN hb hhit => ?_⟩
  · rw [hrun]
    refine Nat.le_trans (Q.visit_count_le (Inv := fun _ => True) (fun _ _ _ => trivial) (pass := fun _ => true)
      quadHit4_perm (fun _ _ _ _ _ => rfl) p pk trivial) ?_
    rw [Q.root_reach h.unfolds.root_isQuad]
    exact Q.reach_count_le_ids _ _ _
  · have hge := Q.visit_count_ge_final (idx := q.primIndices) RayPacket4.Lowered.refl RayPacket4.Lowered.trans
      (fun r x => (hcb r x).1) (pass := fun a => quadTest4 a run.ray i) (fin := run.ray) (hit := quadHit4) quadHit4_perm
      (by
        intro bs r s hr hpass
        show (bs.map fun b => (Vec4.ofFn (quadTest4 b r)).any).get s = true
        rw [Vec4.get_map]
        exact (Vec4.any_iff _).2 ⟨i, by rw [Vec4.get_ofFn]; exact quadTest4_lowered hr hpass⟩) p pk
      (by rw [← hrun]; exact hfin) (by rw [← hrun]; exact RayPacket4.Lowered.refl _)
    rw [Q.root_reach h.unfolds.root_isQuad, ← hrun] at hge
    have hmem : p ∈ Q.reach q.primIndices (fun a => quadTest4 a run.ray i) := by
      obtain ⟨⟨t, e⟩, _⟩ := hlow
      refine Q.mem_reach_one (hb.mono fun a ids h hq => ?_) hp
      rw [e] at hhit ⊢
      exact (C36_quad_monotone (h hq).1 hv).2 _ i hpN (h hq).2 hhit
    exact List.count_pos_iff.1 (Nat.lt_of_lt_of_le (List.count_pos_iff.2 hmem) hge)

/-- C28 for packets: the same, for every lane. -/
theorem C28_packet_complete (q : Mbvh F) (Q : QTree F) (h : q.Denotes Q) (hd : Q.stackNeed ≤ 32) (boxes : Nat → Aabb F)
    (hb : Q.Bounds q.primIndices boxes) (pk : RayPacket4 F) (cb : RayPacket4 F → Nat → RayPacket4 F × Bool)
    (hcb : ∀ r id, r.Lowered (cb r id).1 ∧ (cb r id).2 = false) (fuel : Nat) (hf : Q.rounds ≤ fuel) :
    let run := q.forIndicesPacket cb fuel pk
    run.ending = .finished ∧ pk.Lowered run.ray ∧
    (∀ p, run.items.count p ≤ (Q.ids q.primIndices).count p) ∧
    ∀ i, Q.NoNaN q.primIndices (pk.originOf i) (pk.invOf i) →
      ∀ p ∈ Q.ids q.primIndices, (boxes p).Valid → (boxes p).NoNaN (pk.originOf i) (pk.invOf i) →
        quadTest4 (boxes p) run.ray i = true → p ∈ run.items := by
  obtain ⟨h1, h2, h3, h4⟩ := C28_packet_offered q Q h hd pk cb hcb fuel hf
  exact ⟨h1, h2, h3, fun i hN p hp hv hpN hhit =>
    h4 i p hp _ hv hpN ((hb.and hN).mono fun a ids h hq =>
      ⟨h.1 p hq, h.2 (List.ne_nil_of_mem hq)⟩) hhit⟩

end lawful

/-! C30: ordering of the four slots. -/

/-- C30, the part that holds.  For every ray and all float values (NaN included) the ids are a permutation of the four
slots, for rays and packets; and when the four entry distances are numbers, the first id has the smallest and the last
id the largest entry distance.  Missing: the two ids in between need not be in order (`C30_not_sorted`). -/
theorem C30_order_partial [LawfulFloat F] (bs : Vec4 (Aabb F)) (ray : Ray F) (pk : RayPacket4 F) :
    (quadHit bs ray).ids.toList.Perm [0, 1, 2, 3] ∧ (quadHit4 bs pk).ids.toList.Perm [0, 1, 2, 3] ∧
    ((∀ i, Num (quadLane (bs.get i) ray).1) → ∀ j,
      ((quadLane (bs.get ((quadHit bs ray).ids.get 0)) ray).1 <=. (quadLane (bs.get j) ray).1) = true ∧
      ((quadLane (bs.get j) ray).1 <=. (quadLane (bs.get ((quadHit bs ray).ids.get 3)) ray).1) = true) := by
  refine ⟨sortIds_perm _, .refl _, fun hn j => ?_⟩
  have := sortIds_extreme (t := bs.map fun b => (quadLane b ray).1) (fun k => by rw [Vec4.get_map]; exact hn k) j
  simp only [Vec4.get_map] at this
  exact this

/-- Four unit cubes, the nearest first, whose middle two are in the wrong order. -/
def orderBoxes : Vec4 (Aabb F32) :=
  let cube := fun (x : Int) => ofPoints2 (⟨lit x 0, lit 0 0, lit 0 0⟩ : Vec3 F32) ⟨lit (x + 1) 0, lit 1 0, lit 1 0⟩
  ⟨cube 0, cube 2, cube 1, cube 3⟩
def orderRay : Ray F32 := Ray.new ⟨lit (-1) 0, lit 5 (-1), lit 5 (-1)⟩ ⟨lit 1 0, lit 1 (-3), lit 1 (-3)⟩

/-- C30 is false as stated: on these boxes the ids come out as 0, 1, 2, 3 although slot 1 is entered after slot 2 (all
four slots hit, all distances numbers). -/
theorem C30_not_sorted : (quadHit orderBoxes orderRay).ids = ⟨0, 1, 2, 3⟩ ∧
    (∀ i, (quadHit orderBoxes orderRay).result.get i = true) ∧
    ((quadLane (orderBoxes.get 2) orderRay).1 <. (quadLane (orderBoxes.get 1) orderRay).1) = true ∧
    (∀ i, Num (quadLane (orderBoxes.get i) orderRay).1) := by
  unfold Num; decide +kernel

/-! C32: nearest hit in exact arithmetic. -/

theorem quad_axis {lo hi o d s : Rat} (hd : d ≠ 0) (h : lo ≤ o + s * d ∧ o + s * d ≤ hi) :
    Min.min ((lo - o) * (1 / d)) ((hi - o) * (1 / d)) ≤ s ∧ s ≤ Max.max ((lo - o) * (1 / d)) ((hi - o) * (1 / d)) := by
  have := (axis_rat hd).1 h
  unfold nearP at this
  change ((if decide (d < 0) = true then hi else lo) - o) * (1 / d) ≤ s ∧
    s ≤ ((if (!decide (d < 0)) = true then hi else lo) - o) * (1 / d) at this
  by_cases hn : d < 0
  · simp only [hn, decide_true, if_true, Bool.not_true, Bool.false_eq_true, if_false] at this
    exact ⟨(min_le_right _ _).trans this.1, this.2.trans (le_max_left _ _)⟩
  · simp only [hn, decide_false, Bool.not_false, Bool.false_eq_true, if_false, if_true] at this
    exact ⟨(min_le_left _ _).trans this.1, this.2.trans (le_max_right _ _)⟩

theorem rat_vmin (a b : Rat) : FloatOps.vmin a b = Min.min a b := by
  show (if a < b then a else b) = _
  rcases lt_or_ge a b with h | h
  · rw [if_pos h, min_eq_left h.le]
  · rw [if_neg (not_lt.2 h), min_eq_right h]
theorem rat_vmax (a b : Rat) : FloatOps.vmax a b = Max.max a b := by
  show (if b < a then a else b) = _
  rcases lt_or_ge b a with h | h
  · rw [if_pos h, max_eq_left h.le]
  · rw [if_neg (not_lt.2 h), max_eq_right h]

theorem quadTest_of_has {a : Aabb Rat} {r : Ray Rat} (hw : r.WellFormed) (hd : r.direction.NonZero) {s : Rat}
    (hs : a.Has (r.getPointAt s)) (ht : s < r.t) : quadTest a r = true := by
  obtain ⟨h1, _⟩ := hw
  rw [has_rat] at hs
  have ix := quad_axis (nonZero_rat.1 hd.1) hs.1
  have iy := quad_axis (nonZero_rat.1 hd.2.1) hs.2.1
  have iz := quad_axis (nonZero_rat.1 hd.2.2) hs.2.2
  have inv : ∀ d : Rat, FloatOps.div (FloatOps.one : Rat) d = 1 / d := by intro d; rw [rat_one]; rfl
  have hl : (quadLane a r).1 ≤ s ∧ s ≤ (quadLane a r).2 := by
    unfold quadLane
    simp only [rat_vmin, rat_vmax, h1, recip3, Vec3.div, Vec3.map2, Vec3.splat, inv]
    exact ⟨max_le ix.1 (max_le iy.1 iz.1), le_min ix.2 (le_min iy.2 iz.2)⟩
  unfold quadTest
  rw [Bool.and_eq_true]
  exact ⟨rat_le.2 (hl.1.trans hl.2), rat_lt.2 (lt_of_le_of_lt hl.1 ht)⟩

theorem quadNoNaN_rat (Q : QTree Rat) (idx : List Nat) (o i : Vec3 Rat) : Q.NoNaN idx o i := by
  unfold QTree.NoNaN
  induction Q with
  | none => trivial
  | leaf => trivial
  | quad b c0 c1 c2 c3 h0 h1 h2 h3 =>
    exact ⟨⟨fun _ => noNaN_rat _ _ _, fun _ => noNaN_rat _ _ _, fun _ => noNaN_rat _ _ _, fun _ => noNaN_rat _ _ _⟩,
      h0, h1, h2, h3⟩

/-- C32: in exact arithmetic, running a closest-hit test on every primitive yielded by the traversal of an `Mbvh`
(`stackNeed` at most 32, slot boxes containing the primitives' boxes) leaves in `ray.t` the brute-force nearest hit over
all stored primitives and changes nothing else in the ray, although quad nodes are pruned with the shrinking
`ray.t`. -/
theorem C32_nearest_hit (q : Mbvh Rat) (Q : QTree Rat) (h : q.Denotes Q) (hdep : Q.stackNeed ≤ 32) (boxes : Nat → Aabb Rat)
    (hb : Q.Bounds q.primIndices boxes) (ray : Ray Rat) (hw : ray.WellFormed) (hd : ray.direction.NonZero)
    (hits : Nat → Rat → Prop) (hhits : ∀ p s, hits p s → (boxes p).Has (ray.getPointAt s))
    (cb : Ray Rat → Nat → Ray Rat × Bool) (hcb : ClosestHit ray hits cb) (fuel : Nat) (hf : Q.rounds ≤ fuel) :
    ∃ t, (q.forIndices cb fuel ray).ray = { ray with t := t } ∧
      IsNearest hits (Q.ids q.primIndices) ray.tMin ray.t t := by
  have hcb' : ∀ (r : Ray Rat) (id : Nat), r.Lowered (cb r id).1 ∧ (cb r id).2 = false := by
    intro r id
    obtain ⟨t, hl, e⟩ := hcb.1 r id
    rw [e]
    exact ⟨⟨⟨t, rfl⟩, .inr (rat_le.2 hl)⟩, rfl⟩
  obtain ⟨_, _, hcount, hcomp⟩ := C28_ray_complete q Q h hdep boxes hb ray cb hcb' fuel hf
  have hray : (q.forIndices cb fuel ray).ray =
      (q.forIndices cb fuel ray).items.foldl (fun r x => (cb r x).1) ray := by
    rw [(C28_traversal_refines q Q h hdep fuel hf).1]; exact Q.visit_ray ray
  obtain ⟨t, e, l, lo, att⟩ := fold_closest hcb (q.forIndices cb fuel ray).items ray.t
  have hfr := hray.trans e
  refine ⟨t, hfr, l, ?_, ?_⟩
  · intro p hp s hs h1 h2
    by_contra hlt
    rw [not_le] at hlt
    have hbox := hhits p s hs
    refine absurd (lo p ?_ s hs h1 h2) (not_le.2 hlt)
    refine hcomp (quadNoNaN_rat _ _ _ _) p hp ?_ (noNaN_rat _ _ _) ?_
    · exact valid_of_has hbox
    · rw [hfr]
      exact quadTest_of_has (r := { ray with t := t }) hw hd hbox hlt
  · rcases att with a | ⟨p, hp, h⟩
    · exact .inl a
    · exact .inr ⟨p, List.count_pos_iff.1 (Nat.lt_of_lt_of_le (List.count_pos_iff.2 hp) (hcount p)), h⟩

/-! C24, C25, C54 for `Mbvh`. -/

/-- C24 for `Mbvh`: as `C24_prims_agree`. -/
theorem C24_mbvh_prims_agree {P : Type} (q : Mbvh F) (prims : List P)
    (hcov : ∀ id ∈ q.primIndices, id < prims.length) (fuel : Nat) :
    (∀ (cb : Ray F → P → Ray F × Bool) (cb' : Ray F → Nat → Ray F × Bool) (ray : Ray F),
      (∀ r id p, prims[id]? = some p → cb' r id = cb r p) →
      (q.forPrims prims cb fuel ray).items.map some = (q.forIndices cb' fuel ray).items.map (fun id => prims[id]?) ∧
      (q.forPrims prims cb fuel ray).ray = (q.forIndices cb' fuel ray).ray ∧
      (q.forPrims prims cb fuel ray).ending = (q.forIndices cb' fuel ray).ending) ∧
    (∀ (cb : RayPacket4 F → P → RayPacket4 F × Bool) (cb' : RayPacket4 F → Nat → RayPacket4 F × Bool)
      (pk : RayPacket4 F), (∀ r id p, prims[id]? = some p → cb' r id = cb r p) →
      (q.forPrimsPacket prims cb fuel pk).items.map some =
        (q.forIndicesPacket cb' fuel pk).items.map (fun id => prims[id]?) ∧
      (q.forPrimsPacket prims cb fuel pk).ray = (q.forIndicesPacket cb' fuel pk).ray ∧
      (q.forPrimsPacket prims cb fuel pk).ending = (q.forIndicesPacket cb' fuel pk).ending) := by
  have hs : ∀ id ∈ q.primIndices, ((fun id => prims[id]?) id).isSome = true := by
    intro id hid; simp [hcov id hid]
  exact ⟨fun cb cb' ray hcb => qdrive_sim (quadStep_sim hs) cb cb' hcb fuel _,
    fun cb cb' pk hcb => qdrive_sim (quadStep_sim hs) cb cb' hcb fuel _⟩

/-- C25 for `Mbvh`, which holds in full: the primitive iterators terminate without failure for every primitive slice,
also one shorter than the stored ids, for every ray, packet and caller. -/
theorem C25_mbvh_prims_terminate {P : Type} (q : Mbvh F) (Q : QTree F) (h : q.Denotes Q) (hd : Q.stackNeed ≤ 32)
    (prims : List P) (fuel : Nat) (hf : Q.rounds ≤ fuel) :
    (∀ cb ray, (q.forPrims prims cb fuel ray).ending = .finished ∨ (q.forPrims prims cb fuel ray).ending = .stopped) ∧
    (∀ cb pk, (q.forPrimsPacket prims cb fuel pk).ending = .finished ∨
      (q.forPrimsPacket prims cb fuel pk).ending = .stopped) := by
  constructor
  · intro cb ray
    unfold Mbvh.forPrims
    rw [qdrive_fresh (items := fun f c => firstSome (fun id => prims[id]?) (BTree.rangeIds q.primIndices f c))
      quadHit_perm (fun _ _ => rfl) h.unfolds h.unfolds.root_isQuad h.ranges ray hd hf]
    exact Q.visit_ending ray
  · intro cb pk
    unfold Mbvh.forPrimsPacket
    rw [qdrive_fresh (items := fun f c => firstSome (fun id => prims[id]?) (BTree.rangeIds q.primIndices f c))
      quadHit4_perm (fun _ _ => rfl) h.unfolds h.unfolds.root_isQuad h.ranges pk hd hf]
    exact Q.visit_ending pk

/-- C54 (4-wide). `Mbvh::construct` of the default BVH is the empty `Mbvh`, whose bounds are the empty box; every
iterator over it yields nothing. -/
theorem C54_empty_mbvh {P : Type} (prims : List P) (fuel : Nat) (hf : 5 ≤ fuel) (d : Nat) :
    Mbvh.construct d (Bvh.default : Bvh F) = some Mbvh.default ∧ (Mbvh.default : Mbvh F).bounds = Aabb.empty ∧
    (∀ cb ray, (Mbvh.default : Mbvh F).forIndices cb fuel ray = ⟨[], ray, .finished⟩) ∧
    (∀ cb p, (Mbvh.default : Mbvh F).forIndicesPacket cb fuel p = ⟨[], p, .finished⟩) ∧
    (∀ cb ray, (Mbvh.default : Mbvh F).forPrims prims cb fuel ray = ⟨[], ray, .finished⟩) ∧
    (∀ cb p, (Mbvh.default : Mbvh F).forPrimsPacket prims cb fuel p = ⟨[], p, .finished⟩) := by
  obtain ⟨n, rfl⟩ : ∃ n, fuel = n + 5 := ⟨fuel - 5, by omega⟩
  exact ⟨rfl, rfl, fun _ _ => rfl, fun _ _ => rfl, fun _ _ => rfl, fun _ _ => rfl⟩

omit [FloatOps F] in
/-- C54 (4-wide). Once a quad iterator answers `None` it answers `None` again, whatever happens to the ray. -/
theorem C54_mbvh_fused {σ ι : Type} (nodes : List (MbvhNode F)) (indices : List Nat) (item : Nat → Option ι)
    (hit : Vec4 (Aabb F) → σ → MbvhHit) (t : QTrav σ) (ray' : σ) (h : quadStep nodes indices item hit t = .done) :
    quadStep nodes indices item hit { t with ray := ray' } = .done := by
  unfold quadStep at h ⊢
  split at h
  · rename_i hi
    split at h
    · rename_i hst
      simp [hi, hst]
    · split at h <;> cases h
  · simp only at h
    (repeat' split at h) <;> cases h

/-! C29: the limit is tight. -/

/-- Lay out a binary tree as the builders do: the two children of a node are adjacent.  Returns the node for `T` and the
nodes that go to `next`, `next + 1`, ... -/
def layOut : BTree F → Nat → BvhNode F × List (BvhNode F)
  | .leaf b f c, _ => ({ bounds := { b with extra1 := c, extra2 := f } }, [])
  | .node b l r, next =>
    let (nl, restL) := layOut l (next + 2)
    let (nr, restR) := layOut r (next + 2 + restL.length)
    ({ bounds := { b with extra1 := -1, extra2 := next } }, nl :: nr :: (restL ++ restR))
def unitBox : Aabb Rat := { min := ⟨-1, -1, -1⟩, extra1 := 0, max := ⟨1, 1, 1⟩, extra2 := 0 }
/-- A pair of leaves. -/
def pairTree : BTree Rat := .node unitBox (.leaf unitBox 0 1) (.leaf unitBox 0 1)
/-- A binary tree of depth `2 k + 1` that collapses to a quad tree of depth `k` with four quad nodes at every level. -/
def bushTree : Nat → BTree Rat
  | 0 => pairTree
  | k + 1 => .node unitBox (.node unitBox (bushTree k) pairTree) (.node unitBox pairTree pairTree)
def bushBvh (k : Nat) : Bvh Rat :=
  { nodes := (layOut (bushTree k) 1).1 :: (layOut (bushTree k) 1).2, primIndices := [0], buildType := .binnedSAH }

theorem bushTree_depth (k : Nat) : (bushTree k).depth = 2 * k + 1 := by
  induction k with
  | zero => rfl
  | succ k ih => simp only [bushTree, BTree.depth, ih]; simp [pairTree, BTree.depth]; omega
theorem bushTree_quadDepth (k : Nat) : (bushTree k).toQuad.depth = k := by
  have : ∀ k, (bushTree k).collapse.depth = k ∧ (bushTree k).collapse.isQuad = true := by
    intro k
    induction k with
    | zero => exact ⟨by decide +kernel, rfl⟩
    | succ k ih =>
      refine ⟨?_, rfl⟩
      simp only [bushTree, BTree.collapse, BTree.kidA, BTree.kidB, QTree.depth, ih]
      simp [pairTree, BTree.collapse, BTree.kidA, BTree.kidB, QTree.depth, QTree.isQuad]
  cases k with
  | zero => decide +kernel
  | succ k => exact (this (k + 1)).1

theorem bush_compact : (bushBvh 11).Compact (bushTree 11) ∧ (bushBvh 10).Compact (bushTree 10) := by
  have r : ∀ k, (bushTree k).RangesIn [0] := by
    have hp : pairTree.RangesIn [0] := by simp [pairTree, BTree.RangesIn]
    intro k
    induction k with
    | zero => exact hp
    | succ k ih => exact ⟨⟨ih, hp⟩, hp, hp⟩
  refine ⟨⟨⟨unfold?_sound (fuel := 30) ?_, r _⟩, ?_, ?_, ?_, ?_⟩,
    ⟨⟨unfold?_sound (fuel := 30) ?_, r _⟩, ?_, ?_, ?_, ?_⟩⟩
  any_goals decide +kernel
  all_goals intro bb f c e; cases e

/-- C29 (tightness). `Mbvh::construct` of a BVH of depth 23 gives a quad tree of depth 11 on which traversal writes
past the stack; the same shape one level shallower (binary depth 21, quad depth 10) is traversed completely. -/
theorem C29_stack_tight :
    (bushBvh 11).Compact (bushTree 11) ∧ (bushTree 11).depth = 23 ∧ (bushTree 11).toQuad.depth = 11 ∧
    ((Mbvh.construct 65 (bushBvh 11)).map fun q => (q.forIndices (fun r _ => (r, false)) 1000 chainRay).ending) =
      some .panicked ∧
    ((Mbvh.construct 65 (bushBvh 10)).map fun q => (q.forIndices (fun r _ => (r, false)) 1000 chainRay).ending) =
      some .finished :=
  ⟨bush_compact.1, bushTree_depth 11, bushTree_quadDepth 11, by decide +kernel, by decide +kernel⟩

/-- C29, tightness in one statement: some compact BVH of depth 23 makes an `Mbvh` whose traversal fails, however many
rounds it is given. -/
theorem C29_not_all_traversable : ∃ (b : Bvh Rat) (T : BTree Rat) (q : Mbvh Rat) (Q : QTree Rat) (ray : Ray Rat),
    b.Compact T ∧ T.depth = 23 ∧ Mbvh.construct 65 b = some q ∧ q.Denotes Q ∧ Q.depth = 11 ∧
    ∀ fuel ≥ 1000, (q.forIndices (fun r _ => (r, false)) fuel ray).ending = .panicked := by
  obtain ⟨q, e, hq, _⟩ := construct_main (bushBvh 11) (bushTree 11) bush_compact.1 65 (by rw [bushTree_depth]; omega)
  refine ⟨bushBvh 11, bushTree 11, q, (bushTree 11).toQuad, chainRay, bush_compact.1, bushTree_depth 11, e, hq,
    bushTree_quadDepth 11, ?_⟩
  intro fuel hf
  have mono : ∀ {σ ι : Type} (step : QTrav σ → QStep σ ι) cb (n m : Nat) (t : QTrav σ),
      (qdrive step cb n t).ending = .panicked → (qdrive step cb (n + m) t).ending = .panicked := by
    intro σ ι step cb n
    induction n with
    | zero => intro m t h; simp [qdrive] at h
    | succ n ih =>
      intro m t h
      rw [show n + 1 + m = (n + m) + 1 by omega]
      simp only [qdrive] at h ⊢
      split at h
      · simp at h
      · rfl
      · exact ih _ _ h
      · rename_i x t' _
        cases hc : cb t'.ray x with
        | mk r s =>
          rw [hc] at h
          cases s with
          | true => exact h
          | false => exact ih m { t' with ray := r } h
  obtain ⟨m, rfl⟩ := Nat.le.dest hf
  have ht := C29_stack_tight.2.2.2.1
  rw [e] at ht
  exact mono _ _ _ _ _ (Option.some.inj ht)

/-! C56: `construct_from_raw`. -/

section raw
omit [FloatOps F]
theorem BTree.size_odd (T : BTree F) : T.size % 2 = 1 := by
  induction T with
  | leaf => rfl
  | node b l r hl hr => simp only [BTree.size]; omega
theorem BTree.size_one {T : BTree F} (h : T.size = 1) : ∃ b f c, T = .leaf b f c := by
  cases T with
  | leaf b f c => exact ⟨b, f, c, rfl⟩
  | node b l r => have := l.size_odd; have := r.size_odd; simp only [BTree.size] at h; omega
end raw

/-- The special path of `construct_from_raw`. -/
theorem raw_small (b : Bvh F) (T : BTree F) (h : b.Compact T) (h4 : b.nodes.length ≤ 4) :
    ∃ (ms : List (MbvhNode F)) (Q' : QTree F),
      modifyAt (List.replicate b.nodes.length MbvhNode.new) 0 (rawSlots b.nodes 0) = some ms ∧
      QSlot ms 0 (-1) Q' ∧ Q'.RangesIn b.indices ∧ Q'.ranges = T.ranges := by
  have hodd := T.size_odd
  rw [h.size] at hodd
  have hU := h.unfolds
  have hR := h.ranges
  have hs := h.size
  obtain h1 | h3 : b.nodes.length = 1 ∨ b.nodes.length = 3 := by omega
  · obtain ⟨nd, hnd⟩ := List.length_eq_one_iff.1 h1
    rw [hnd] at hU hs ⊢
    cases hU with
    | @node _ _ _ l r => have := l.size_odd; have := r.size_odd; simp [BTree.size] at hs; omega
    | leaf h0 hc hf' =>
      rename_i f c nd'
      simp only [List.getElem?_cons_zero, Option.some.injEq] at h0
      subst h0
      refine ⟨[rawSlots [nd] 0 MbvhNode.new],
        .quad ((rawSlots [nd] 0 MbvhNode.new).boxes) (.leaf f c) .none .none .none, rfl, ?_,
        ⟨hR, trivial, trivial, trivial⟩, rfl⟩
      refine .quad (i := 0) (by omega) rfl rfl (.leaf hc hf') (.none ?_ ?_) (.none ?_ ?_) (.none ?_ ?_) <;>
        (show (-1 : Int) < 0; omega)
  · obtain ⟨n0, n1, n2, hnd⟩ : ∃ a b' c, b.nodes = [a, b', c] := by
      match hb : b.nodes, h3 with
      | [a, b', c], _ => exact ⟨a, b', c, rfl⟩
    rw [hnd] at hU hs ⊢
    cases hU with
    | leaf h0 hc hf' => simp [BTree.size] at hs
    | @node _ k nd' l r h0 hc hf' hl hr =>
      simp only [List.getElem?_cons_zero, Option.some.injEq] at h0
      subst h0
      have := l.size_odd
      have := r.size_odd
      have hsz : l.size = 1 ∧ r.size = 1 := by simp [BTree.size] at hs; omega
      obtain ⟨b1, f1, c1, rfl⟩ := BTree.size_one hsz.1
      obtain ⟨b2, f2, c2, rfl⟩ := BTree.size_one hsz.2
      generalize hx : BTree.leaf b1 f1 c1 = x at hl
      cases hl with
      | node => cases hx
      | leaf hl0 hlc hlf =>
        rename_i ndl
        injection hx with _ e1 e2
        subst e1 e2
        generalize hy : BTree.leaf b2 f2 c2 = y at hr
        cases hr with
        | node => cases hy
        | leaf hr0 hrc hrf =>
          rename_i ndr
          injection hy with _ e1 e2
          subst e1 e2
          match k, hl0, hr0, hf' with
          | 0, hl0, _, _ =>
            simp only [List.getElem?_cons_zero, Option.some.injEq] at hl0
            subst hl0; omega
          | 1, hl0, hr0, hf' =>
            simp at hl0 hr0
            subst hl0 hr0
            refine ⟨[rawSlots [n0, n1, n2] 0 MbvhNode.new, MbvhNode.new, MbvhNode.new],
              .quad ((rawSlots [n0, n1, n2] 0 MbvhNode.new).boxes) (.quad (MbvhNode.new : MbvhNode F).boxes .none .none .none .none)
                (.leaf f1 c1) (.leaf f2 c2) .none, rfl, ?_, ?_, ?_⟩
            · refine .quad (i := 0) (by omega) rfl rfl (.quad (i := 1) hc hf' rfl (.none ?_ ?_) (.none ?_ ?_) (.none ?_ ?_) (.none ?_ ?_))
                (.leaf hlc hlf) (.leaf hrc hrf) (.none ?_ ?_) <;> (show (-1 : Int) < 0; omega)
            · exact ⟨⟨trivial, trivial, trivial, trivial⟩, hR.1, hR.2, trivial⟩
            · rfl
          | k + 2, _, hr0, _ => simp at hr0

/-- C56. `construct_from_raw` on the nodes and indices of a compact BVH does not panic, and stores exactly the same
leaf ranges in the same order as `construct` does (both are those of the binary tree), also on its special path for at
most four nodes; nodes and indices are kept. -/
theorem C56_from_raw (b : Bvh F) (T : BTree F) (h : b.Compact T) (fuel : Nat) (hf : T.depth < fuel) :
    ∃ (q q' : Mbvh F) (Q Q' : QTree F),
      Mbvh.construct fuel b = some q ∧ q.Denotes Q ∧ Mbvh.constructFromRaw fuel b.nodes b.indices = some q' ∧
      q'.Denotes Q' ∧ Q'.ranges = Q.ranges ∧ Q.ranges = T.ranges ∧ q'.nodes = q.nodes ∧
      q'.primIndices = q.primIndices := by
  obtain ⟨q, e, hq, hn, hi, _⟩ := construct_main b T h fuel hf
  unfold Mbvh.constructFromRaw
  rw [if_neg (by
    intro hne
    obtain ⟨⟨hu, _⟩, _⟩ := h
    cases hu <;> simp_all)]
  by_cases h4 : b.nodes.length ≤ 4
  · rw [if_pos h4]
    obtain ⟨ms, Q', e', h1, h2, h3⟩ := raw_small b T h h4
    exact ⟨q, ⟨b.nodes, ms, b.indices⟩, T.toQuad, Q', e, hq, by rw [e']; rfl, ⟨h1, h2⟩,
      h3.trans (toQuad_ranges T).symm, toQuad_ranges T, hn.symm, hi.symm⟩
  · rw [if_neg h4]
    obtain ⟨s', e', _, _, _, hs, _⟩ := merge_root b T h fuel hf
    exact ⟨q, ⟨b.nodes, s'.1, b.indices⟩, T.toQuad, T.toQuad, e, hq, by rw [e']; rfl, ⟨hs, toQuad_rangesIn h.ranges⟩,
      rfl, toQuad_ranges T, hn.symm, hi.symm⟩

/-! Non-vacuity. -/

theorem exBvh_compact : exBvh.Compact exTree := by
  refine ⟨⟨unfold?_sound (fuel := 3) (by decide +kernel), ?_⟩, by decide, ?_, by decide, by decide⟩
  · unfold exTree exBvh BTree.RangesIn BTree.RangesIn; decide
  · intro bb f c e; cases e
theorem exBvh_bounds : exTree.Bounds exBvh.indices exBoxes := by
  refine ⟨by decide +kernel, ?_, ?_⟩ <;> (unfold BTree.Forall; decide +kernel)
theorem twoBvh_compact : twoBvh.Compact twoTree :=
  ⟨twoBvh_denotes, by decide, (by intro bb f c e; cases e), by decide, by decide⟩
theorem twoBvh_bounds : twoTree.Bounds twoBvh.indices twoBoxes := by
  refine ⟨by decide +kernel, ?_, ?_⟩ <;> (unfold BTree.Forall; decide +kernel)

/-- All hypotheses of C32 are met on the 4-wide tree of the two-leaf BVH; the nearest hit is 1. -/
example : ∃ (q : Mbvh Rat) (Q : QTree Rat), Mbvh.construct 65 exBvh = some q ∧ q.Denotes Q ∧ Q.stackNeed ≤ 32 ∧
    Q.Bounds q.primIndices exBoxes ∧ Q.rounds ≤ 20 ∧ (q.forIndices (distCb exDist) 20 exRay).ray.t = 1 ∧
    ∃ t, (q.forIndices (distCb exDist) 20 exRay).ray = { exRay with t := t } ∧
      IsNearest (fun p s => exDist p = some s) (Q.ids q.primIndices) exRay.tMin exRay.t t := by
  obtain ⟨q, e, hq, h1, h2, h3, h4⟩ := construct_main exBvh exTree exBvh_compact 65 (by decide)
  have hb : exTree.toQuad.Bounds q.primIndices exBoxes := by
    rw [h2]; exact toQuad_forall (C := fun a p => (exBoxes p).Within a) exBvh_bounds
  refine ⟨q, _, e, hq, by decide, hb, by decide, ?_, ?_⟩
  · have : ((Mbvh.construct 65 exBvh).map fun q => (q.forIndices (distCb exDist) 20 exRay).ray.t) = some 1 := by
      decide +kernel
    rw [e] at this; exact Option.some.inj this
  · refine C32_nearest_hit q _ hq (by decide) exBoxes hb exRay (by decide +kernel) (by decide +kernel) _ ?_ _
      (distCb_closest _ exDist) 20 (by decide)
    intro p s h
    match p, h with
    | 0, h => have : s = 3 := by simp [exDist] at h; exact h.symm
              subst this; decide +kernel
    | 1, h => have : s = 1 := by simp [exDist] at h; exact h.symm
              subst this; decide +kernel

/-- The hypotheses of C28 (ray and packet) are met in binary32, and both primitives pass. -/
example : ∃ (q : Mbvh F32) (Q : QTree F32), Mbvh.construct 65 twoBvh = some q ∧ q.Denotes Q ∧ Q.stackNeed ≤ 32 ∧
    Q.Bounds q.primIndices twoBoxes ∧ Q.NoNaN q.primIndices twoRay.origin twoRay.invDirection ∧
    Q.NoNaN q.primIndices (twoPacket.originOf 2) (twoPacket.invOf 2) ∧ Q.ids q.primIndices = [0, 1] ∧
    (∀ p ∈ Q.ids q.primIndices, (twoBoxes p).Valid ∧ (twoBoxes p).NoNaN twoRay.origin twoRay.invDirection ∧
      quadTest (twoBoxes p) twoRay = true ∧ (twoBoxes p).NoNaN (twoPacket.originOf 2) (twoPacket.invOf 2) ∧
      quadTest4 (twoBoxes p) twoPacket 2 = true) := by
  obtain ⟨q, e, hq, h1, h2, h3, h4⟩ := construct_main twoBvh twoTree twoBvh_compact 65 (by decide)
  have hb : twoTree.toQuad.Bounds q.primIndices twoBoxes := by
    rw [h2]; exact toQuad_forall (C := fun a p => (twoBoxes p).Within a) twoBvh_bounds
  refine ⟨q, _, e, hq, by decide, hb, ?_, ?_, ?_, ?_⟩
  · rw [h2]; refine ⟨?_, trivial, trivial, trivial, trivial⟩; decide +kernel
  · rw [h2]; refine ⟨?_, trivial, trivial, trivial, trivial⟩; decide +kernel
  · rw [h2]; rfl
  · rw [h2]; decide +kernel

/-- A caller as in C28: it halves nothing, it just sets `t` to a smaller number when there is room. -/
example : ∀ (r : Ray F32) (id : Nat), r.Lowered
    ((fun (r : Ray F32) (_ : Nat) => (if (lit 1 0 : F32) <=. r.t then { r with t := lit 1 0 } else r, false)) r id).1 := by
  intro r id
  simp only
  split
  · rename_i h; exact ⟨⟨_, rfl⟩, .inr h⟩
  · exact Ray.Lowered.refl r

end Rtbvh
