import Verif.Props.TraceExact
/- C93 in binary32 for the queries that cull by the current `t`: rays through the `Mbvh`, packets through both hierarchies. -/
namespace Rtbvh
open FloatOps LawfulFloat Aabb

/-- Rounding does not disturb the order of hits on this ray: whenever `Triangle::intersect` accepts a triangle against the
initial `ray.t`, or against the `t` at which some triangle of the mesh by itself is accepted, the ray really meets the triangle
in exact arithmetic before that `t`. -/
def HitsInOrder (tris : List (Triangle F32)) (ray : Ray F32) : Prop :=
  ∀ (p : Nat) (tr : Triangle F32) (T : F32), tris[p]? = some tr → (T = ray.t ∨ ∃ q ∈ tris, T = (q.intersect ray).1.t) →
    (tr.intersect { ray with t := T }).2 = true →
    ∃ s : ℚ, T.Above s ∧ tr.exact.Has (pointOn ray.origin ray.direction s)

/-- The same for lane `i` of a packet; the parameter is not negative. -/
def HitsInOrder4 (tris : List (Triangle F32)) (tm : Vec4 F32) (pk : RayPacket4 F32) (i : Fin 4) : Prop :=
  ∀ (p : Nat) (tr : Triangle F32) (T : Vec4 F32), tris[p]? = some tr →
    (T.get i = pk.t.get i ∨ ∃ q ∈ tris, T.get i = (q.intersect4 pk tm).1.t.get i) →
    laneHit (tr.intersect4 { pk with t := T } tm).2 i = true →
    ∃ s : ℚ, 0 ≤ s ∧ (T.get i).Above s ∧ tr.exact.Has (pointOn (pk.originOf i) (pk.dirOf i) s)

section
variable {F : Type} [FloatOps F] [LawfulFloat F]

/-- Where a run of the mesh tracer can end: at the initial `t`, or at the `t` of a triangle tested by itself. -/
theorem ray_ends (tris : List (Triangle F)) (ray : Ray F) (items : List Nat) :
    (items.foldl (fun r x => (meshCb tris r x).1) ray).t = ray.t ∨
      ∃ q ∈ tris, (items.foldl (fun r x => (meshCb tris r x).1) ray).t = (q.intersect ray).1.t := by
  have key : ∀ (xs : List Nat) (r : Ray F), r = { ray with t := r.t } →
      (r.t = ray.t ∨ ((r.t <. ray.t) = true ∧ (ray.tMin <. r.t) = true ∧ ∃ q, rayTest tris ray q = some r.t)) →
      let o := xs.foldl (fun r x => (meshCb tris r x).1) r
      (o.t = ray.t ∨ ((o.t <. ray.t) = true ∧ (ray.tMin <. o.t) = true ∧ ∃ q, rayTest tris ray q = some o.t)) := by
    intro xs
    induction xs with
    | nil => exact fun r _ h => h
    | cons x xs ih =>
      intro r hr h
      have st := meshCb_step tris ray r.t x
      rw [← hr] at st
      refine ih _ ?_ ?_
      · show (meshCb tris r x).1 = { ray with t := (meshCb tris r x).1.t }
        rw [st]
      · show ((meshCb tris r x).1.t = ray.t ∨ (((meshCb tris r x).1.t <. ray.t) = true ∧
          (ray.tMin <. (meshCb tris r x).1.t) = true ∧ ∃ q, rayTest tris ray q = some (meshCb tris r x).1.t))
        rw [st]
        simp only
        cases e : rayTest tris ray x with
        | none => exact h
        | some s =>
          simp only
          split
          · rename_i hc
            rw [Bool.and_eq_true] at hc
            right
            refine ⟨?_, hc.1, x, e⟩
            rcases h with h | ⟨h1, _⟩
            · rw [← h]; exact hc.2
            · exact lt_of_lt_of_le' hc.2 (lt_le h1)
          · exact h
  rcases key items ray rfl (.inl rfl) with h | ⟨h1, h2, q, hq⟩
  · exact .inl h
  · right
    obtain ⟨tr, e, _⟩ := accepts_of_test tris ray hq h2 h1
    refine ⟨tr, List.mem_of_getElem? e, ?_⟩
    have := meshCb_step tris ray ray.t q
    rw [show ({ ray with t := ray.t } : Ray F) = ray from rfl] at this
    simp only [meshCb, e, hq] at this
    rw [if_pos (by rw [Bool.and_eq_true]; exact ⟨h2, h1⟩)] at this
    exact ((congrArg Ray.t (Prod.mk.inj this).1).trans rfl).symm

/-- The same for a lane of a packet. -/
theorem lane_ends (tris : List (Triangle F)) (tm : Vec4 F) (pk : RayPacket4 F) (i : Fin 4) (items : List Nat) :
    (items.foldl (fun r x => (meshCb4 tris tm r x).1) pk).t.get i = pk.t.get i ∨
      ∃ q ∈ tris, (items.foldl (fun r x => (meshCb4 tris tm r x).1) pk).t.get i = (q.intersect4 pk tm).1.t.get i := by
  have key : ∀ (xs : List Nat) (r : RayPacket4 F), r = { pk with t := r.t } →
      (r.t.get i = pk.t.get i ∨ ((r.t.get i <. pk.t.get i) = true ∧ (tm.get i <=. r.t.get i) = true ∧
        ∃ q, laneTest tris pk i q = some (r.t.get i))) →
      let o := xs.foldl (fun r x => (meshCb4 tris tm r x).1) r
      (o.t.get i = pk.t.get i ∨ ((o.t.get i <. pk.t.get i) = true ∧ (tm.get i <=. o.t.get i) = true ∧
        ∃ q, laneTest tris pk i q = some (o.t.get i))) := by
    intro xs
    induction xs with
    | nil => exact fun r _ h => h
    | cons x xs ih =>
      intro r hr h
      obtain ⟨t', e1, e2⟩ := meshCb4_step tris tm pk r.t x
      rw [← hr] at e1
      refine ih _ ?_ ?_
      · show (meshCb4 tris tm r x).1 = { pk with t := (meshCb4 tris tm r x).1.t }
        rw [e1]
      show ((meshCb4 tris tm r x).1.t.get i = pk.t.get i ∨ (((meshCb4 tris tm r x).1.t.get i <. pk.t.get i) = true ∧
        (tm.get i <=. (meshCb4 tris tm r x).1.t.get i) = true ∧
        ∃ q, laneTest tris pk i q = some ((meshCb4 tris tm r x).1.t.get i)))
      rw [e1]
      simp only
      rw [e2 i]
      cases e : laneTest tris pk i x with
      | none => exact h
      | some s =>
        simp only
        split
        · rename_i hc
          rw [Bool.and_eq_true] at hc
          right
          refine ⟨?_, hc.1, x, e⟩
          rcases h with h | ⟨h1, _⟩
          · rw [← h]; exact hc.2
          · exact lt_of_lt_of_le' hc.2 (lt_le h1)
        · exact h
  rcases key items pk rfl (.inl rfl) with h | ⟨h1, h2, q, hq⟩
  · exact .inl h
  · right
    obtain ⟨tr, e, _⟩ := accepts4_of_test tris tm pk i (T := pk.t) hq h2 h1
    refine ⟨tr, List.mem_of_getElem? e, ?_⟩
    obtain ⟨t', k1, k2⟩ := meshCb4_step tris tm pk pk.t q
    rw [show ({ pk with t := pk.t } : RayPacket4 F) = pk from rfl] at k1
    simp only [meshCb4, e] at k1
    rw [(Prod.mk.inj k1).1]
    simp only
    rw [k2 i, hq]
    simp only
    rw [if_pos (by rw [Bool.and_eq_true]; exact ⟨h2, h1⟩)]
end

theorem Builder.Padded.lt {b : Builder F32} {order : List Nat} {bvh : Bvh F32} {T : BTree F32} {K : Nat → Prop}
    (S : b.Padded order bvh T K) {items : List Nat} (h : ∀ p, items.count p ≤ (T.ids bvh.indices).count p) :
    ∀ p ∈ items, p < b.primitives.length := fun p hp =>
  List.mem_range.1 (S.ids.mem_iff.1 (List.count_pos_iff.1 (Nat.lt_of_lt_of_le (List.count_pos_iff.2 hp) (h p))))

/-- What C93 says about packets through a `Bvh` and about everything through the `Mbvh`, for meshes and rays of moderate
size on which rounding does not disturb the order of hits. -/
def TracesInOrder (n : Nat) (bvh : Bvh F32) (T : BTree F32) (tris : List (Triangle F32)) : Prop :=
  (T.depth ≤ 31 → ∀ (pk : RayPacket4 F32) (tm : Vec4 F32), pk.hasNaN = false → pk.WellFormed → ∀ fuel ≥ 3 * n,
    let run := bvh.forIndicesPacket (meshCb4 tris tm) fuel pk
    run.ending = .finished ∧ run.ray = { pk with t := run.ray.t } ∧
    ∀ i, (pk.originOf i).Moderate → (pk.dirOf i).Ordinary → HitsInOrder4 tris tm pk i →
      Same (run.ray.t.get i) ((testAll4 tris tm pk).t.get i)) ∧
  (T.depth ≤ 22 ∨ T.leaves ≤ 65 → ∀ k > T.depth, ∃ q : Mbvh F32, Mbvh.construct k bvh = some q ∧ ∃ N, ∀ fuel ≥ N,
    (∀ ray : Ray F32, ray.invDirection = recip3 ray.direction → ray.origin.Moderate → ray.direction.Ordinary →
      HitsInOrder tris ray →
      let run := q.forIndices (meshCb tris) fuel ray
      run.ending = .finished ∧ run.ray = { ray with t := run.ray.t } ∧ Same run.ray.t (testAll tris ray).t) ∧
    (∀ (pk : RayPacket4 F32) (tm : Vec4 F32), pk.WellFormed →
      let run := q.forIndicesPacket (meshCb4 tris tm) fuel pk
      run.ending = .finished ∧ run.ray = { pk with t := run.ray.t } ∧
      ∀ i, (pk.originOf i).Moderate → (pk.dirOf i).Ordinary → HitsInOrder4 tris tm pk i →
        Same (run.ray.t.get i) ((testAll4 tris tm pk).t.get i)))

theorem Builder.Padded.inOrder {b : Builder F32} {order : List Nat} {bvh : Bvh F32} {T : BTree F32} {K : Nat → Prop}
    (S : b.Padded order bvh T K) (hK : ∀ p < b.primitives.length, K p) (tris : List (Triangle F32))
    (hl : tris.length = b.primitives.length) (hfit : BoxesHold tris (boxAt (b.boxes order)))
    (hm : ∀ p < b.primitives.length, (boxAt (b.boxes order) p).Moderate) :
    TracesInOrder b.primitives.length bvh T tris := by
  have hro := S.rounds
  refine ⟨fun hdep pk tm hn hw fuel hf => ?_, fun hdep k hk => ?_⟩
  · intro run
    obtain ⟨h1, _, hcount, -⟩ := C23_packet_offered bvh T S.compact.toDenotes hdep pk hn (meshCb4 tris tm)
      (meshCb4_lowered tris tm) fuel (by omega)
    have hray : run.ray = run.items.foldl (fun r x => (meshCb4 tris tm r x).1) pk := by
      rw [show run = _ from C23_packet_traversal_refines bvh T S.compact.toDenotes hdep pk hn _ fuel (by omega)]
      exact visit_ray T pk
    obtain ⟨ho, _, k⟩ := packet_same tris tm pk run.items run.ray hray (hl ▸ S.lt hcount)
    refine ⟨h1, ho, fun i hO hD hbox => k i fun p hp tr e hacc => ?_⟩
    rw [ho] at hacc
    obtain ⟨s, h0, hs, hhit⟩ := hbox p tr _ e (by rw [hray]; exact lane_ends tris tm pk i run.items) hacc
    obtain ⟨f0, f1, f2⟩ := hfit p tr e
    have hp' := hl ▸ hp
    exact S.watertight.2.1 hdep pk _ hn hw (meshCb4_lowered tris tm) fuel hf i hO hD p hp' (hK p hp') (hm p hp') s h0 hs
      (C95_triangle _ (hm p hp') tr f0 f1 f2 _ hhit)
  · obtain ⟨q, e1, N, hq⟩ := S.watertight.2.2 hdep k hk
    obtain ⟨q', e1', e2, _, h2, _⟩ := construct_main bvh T S.compact k hk
    obtain rfl : q = q' := Option.some.inj (e1.symm.trans e1')
    have need : T.toQuad.stackNeed ≤ 32 := by
      rcases hdep with hdep | hdep
      · refine C29_quad_depth _ ?_
        by_cases h1 : 1 ≤ T.depth
        · have := toQuad_depth' T h1; omega
        · have := toQuad_depth T; omega
      · have := toQuad_need T; omega
    have hids : T.toQuad.ids q.primIndices = T.ids bvh.indices := by rw [toQuad_ids, h2]
    refine ⟨q, e1, Max.max N T.toQuad.rounds, fun fuel hf => ⟨fun ray hw hO hD hbox => ?_, fun pk tm hw => ?_⟩⟩
    · intro run
      obtain ⟨h1, _, h3, -⟩ := C28_ray_offered q T.toQuad e2 need ray _ (meshCb_lowered tris) fuel (le_trans (le_max_right _ _) hf)
      rw [hids] at h3
      have hray : run.ray = run.items.foldl (fun r x => (meshCb tris r x).1) ray := by
        rw [show run = _ from (C28_traversal_refines q T.toQuad e2 need fuel (le_trans (le_max_right _ _) hf)).1 _ ray]
        exact T.toQuad.visit_ray ray
      have ho : run.ray = { ray with t := run.ray.t } := (ray_same_ray tris ray run.items run.ray hray)
      obtain ⟨_, _, k⟩ := ray_same tris ray run.items run.ray hray (hl ▸ S.lt h3) (fun p hp tr e hacc => by
        rw [ho] at hacc
        obtain ⟨s, hs, hhit⟩ := hbox p tr _ e (by rw [hray]; exact ray_ends tris ray run.items) hacc
        obtain ⟨f0, f1, f2⟩ := hfit p tr e
        have hp' := hl ▸ hp
        exact (hq fuel (le_trans (le_max_left _ _) hf)).1 ray _ hw (meshCb_lowered tris) hO hD p hp' (hK p hp') (hm p hp') s hs
          (C95_triangle _ (hm p hp') tr f0 f1 f2 _ hhit))
      exact ⟨h1, ho, k⟩
    · intro run
      obtain ⟨h1, _, h3, -⟩ := C28_packet_offered q T.toQuad e2 need pk _ (meshCb4_lowered tris tm) fuel
        (le_trans (le_max_right _ _) hf)
      rw [hids] at h3
      have hray : run.ray = run.items.foldl (fun r x => (meshCb4 tris tm r x).1) pk := by
        rw [show run = _ from (C28_traversal_refines q T.toQuad e2 need fuel (le_trans (le_max_right _ _) hf)).2 _ pk]
        exact T.toQuad.visit_ray pk
      obtain ⟨ho, _, k⟩ := packet_same tris tm pk run.items run.ray hray (hl ▸ S.lt h3)
      refine ⟨h1, ho, fun i hO hD hbox => k i fun p hp tr e hacc => ?_⟩
      rw [ho] at hacc
      obtain ⟨s, h0, hs, hhit⟩ := hbox p tr _ e (by rw [hray]; exact lane_ends tris tm pk i run.items) hacc
      obtain ⟨f0, f1, f2⟩ := hfit p tr e
      have hp' := hl ▸ hp
      exact (hq fuel (le_trans (le_max_left _ _) hf)).2 pk _ hw (meshCb4_lowered tris tm) i hO hD p hp' (hK p hp') (hm p hp') s hs
        (C95_triangle _ (hm p hp') tr f0 f1 f2 _ hhit)

/-- C93 in binary32, clustering builder: packets through the `Bvh`, rays and packets through the `Mbvh`, which cull by the
current `t`.  Coordinates of boxes and origin at most 200 in size, direction components zero or between `2^-100` and `2^100`,
boxes that contain the triangles.  If rounding does not disturb the order of hits, tracing through the hierarchy leaves the `t`
that testing every triangle leaves; for packets this holds lane by lane, whatever the other lanes are.  Missing: rays with false
hits (`C93_sliver_missed`) and larger coordinates (`C93_real_hit_missed`). -/
theorem C93_in_order_partial (b : Builder F32) (order : List Nat) (h : b.Legal order) (t rounds : Nat) (ht : 0 < t)
    (hs : b.primitives.length ≤ 2 ^ 29) (bvh : Bvh F32)
    (e : b.constructLocb order t rounds = .ok (some (some bvh))) (T : BTree F32) (hU : Unfolds bvh.nodes 0 T)
    (tris : List (Triangle F32)) (hl : tris.length = b.primitives.length)
    (hfit : BoxesHold tris (boxAt (b.boxes order))) (hm : ∀ a ∈ b.boxes order, a.Moderate) :
    TracesInOrder b.primitives.length bvh T tris := by
  have hn : ∀ a ∈ b.boxes order, a.Numeric := fun a ha =>
    ⟨⟨(hm a ha).1.1.num, (hm a ha).1.2.1.num, (hm a ha).1.2.2.num⟩, (hm a ha).2.1.num, (hm a ha).2.2.1.num,
      (hm a ha).2.2.2.num⟩
  exact (locb_padded b order h t rounds ht hs hn bvh e T hU).inOrder (fun _ _ => trivial) tris hl hfit
    (fun p hp => hm _ (boxAt_mem (by rw [Builder.boxes_length h]; exact hp)))

/-- The same for the binned builder, for builds that misplace nothing. -/
theorem C93_in_order_binned_partial (b : Builder F32) (order ks : List Nat) (h : b.Legal order)
    (hs : b.primitives.length ≤ 2 ^ 29) (bvh : Bvh F32)
    (e : b.constructBinnedSah order ks = .ok (some (some bvh))) (T : BTree F32) (hU : Unfolds bvh.nodes 0 T)
    (hmis : ∀ p < b.primitives.length, ¬ T.Misplaces (b.ctx order) bvh.indices p)
    (tris : List (Triangle F32)) (hl : tris.length = b.primitives.length)
    (hfit : BoxesHold tris (boxAt (b.boxes order))) (hm : ∀ a ∈ b.boxes order, a.Moderate) :
    TracesInOrder b.primitives.length bvh T tris := by
  have hn : ∀ a ∈ b.boxes order, a.Numeric := fun a ha =>
    ⟨⟨(hm a ha).1.1.num, (hm a ha).1.2.1.num, (hm a ha).1.2.2.num⟩, (hm a ha).2.1.num, (hm a ha).2.2.1.num,
      (hm a ha).2.2.2.num⟩
  exact (binned_padded b order ks h hs hn bvh e T hU).inOrder hmis tris hl hfit
    (fun p hp => hm _ (boxAt_mem (by rw [Builder.boxes_length h]; exact hp)))

/-- Four rays along the row of triangles; lane 3 looks the other way. -/
def rowOfTrisAxisPacket : RayPacket4 F32 :=
  RayPacket4.new (fun _ => ⟨lit (-1) 0, zero, zero, one⟩) (fun i => ⟨if i = 3 then lit (-1) 0 else one, zero, zero, zero⟩)

/-- Not vacuous: the row of triangles, a ray and a packet along it, whose hits come in the order they have in exact
arithmetic; the build, the `Mbvh` and the distances found (3; none in lane 3). -/
example : (meshScene rowOfTris (some 1)).Legal (List.range 4) ∧
    (∀ a ∈ (meshScene rowOfTris (some 1)).boxes (List.range 4), a.Moderate) ∧
    BoxesHold rowOfTris (boxAt ((meshScene rowOfTris (some 1)).boxes (List.range 4))) ∧
    rowOfTrisAxisRay.WellFormed ∧ rowOfTrisAxisRay.origin.Moderate ∧ rowOfTrisAxisRay.direction.Ordinary ∧
    HitsInOrder rowOfTris rowOfTrisAxisRay ∧ (testAll rowOfTris rowOfTrisAxisRay).t = lit 3 0 ∧
    rowOfTrisAxisPacket.hasNaN = false ∧ rowOfTrisAxisPacket.WellFormed ∧
    (∀ i, (rowOfTrisAxisPacket.originOf i).Moderate ∧ (rowOfTrisAxisPacket.dirOf i).Ordinary ∧
      HitsInOrder4 rowOfTris (Vec4.splat (lit 1 (-4))) rowOfTrisAxisPacket i) ∧
    (testAll4 rowOfTris (Vec4.splat (lit 1 (-4))) rowOfTrisAxisPacket).t = ⟨lit 3 0, lit 3 0, lit 3 0, lit 1 34⟩ ∧
    ∃ bvh T, (meshScene rowOfTris (some 1)).constructLocb (List.range 4) 2 5 = .ok (some (some bvh)) ∧
      Unfolds bvh.nodes 0 T ∧ T.depth ≤ 22 := by
  refine ⟨meshScene_legal _ _ (by decide) (by decide), ?_, ?_, ?_, ?_, ?_, ?_, ?_, ?_, ?_, ?_, ?_, ?_⟩
  · unfold Aabb.Moderate Vec3.Moderate; decide +kernel
  · have key : ∀ p < 4, ∀ tr ∈ rowOfTris[p]?, (boxAt ((meshScene rowOfTris (some 1)).boxes (List.range 4)) p).Has tr.v0 ∧
        (boxAt ((meshScene rowOfTris (some 1)).boxes (List.range 4)) p).Has tr.v1 ∧
        (boxAt ((meshScene rowOfTris (some 1)).boxes (List.range 4)) p).Has tr.v2 := by unfold Aabb.Has Vec3.Le; decide +kernel
    exact fun p tr e => key p (List.getElem?_eq_some_iff.1 e).1 tr e
  · unfold Ray.WellFormed; decide +kernel
  · unfold Vec3.Moderate; decide +kernel
  · unfold Vec3.Ordinary; decide +kernel
  · have has : ∀ p < 3, ∀ tr ∈ rowOfTris[p]?, 
        tr.exact.Has (pointOn rowOfTrisAxisRay.origin rowOfTrisAxisRay.direction ([6, 3, 10].getD p 0)) := by
      intro p hp tr e
      refine ⟨1 / 4, 1 / 4, ?_⟩
      revert p tr; decide +kernel
    have key : ∀ p < 4, ∀ tr ∈ rowOfTris[p]?, ∀ T ∈ rowOfTrisAxisRay.t :: rowOfTris.map (fun q => (q.intersect rowOfTrisAxisRay).1.t),
        (tr.intersect { rowOfTrisAxisRay with t := T }).2 = true → p < 3 ∧ T.Above ([6, 3, 10].getD p 0) := by
      decide +kernel
    intro p tr T e hT hacc
    obtain ⟨h1, h2⟩ := key p (List.getElem?_eq_some_iff.1 e).1 tr e T (by
      rcases hT with rfl | ⟨q, hq, rfl⟩
      · exact List.mem_cons_self
      · exact List.mem_cons_of_mem _ (List.mem_map.2 ⟨q, hq, rfl⟩)) hacc
    exact ⟨_, h2, has p h1 tr e⟩
  · decide +kernel
  · decide +kernel
  · unfold RayPacket4.WellFormed; decide +kernel
  · intro i
    refine ⟨?_, ?_, ?_⟩
    · revert i; unfold Vec3.Moderate; decide +kernel
    · revert i; unfold Vec3.Ordinary; decide +kernel
    · have has : ∀ i : Fin 4, i ≠ 3 → ∀ p < 3, ∀ tr ∈ rowOfTris[p]?, tr.exact.Has (pointOn (rowOfTrisAxisPacket.originOf i)
          (rowOfTrisAxisPacket.dirOf i) ([6, 3, 10].getD p 0)) := by
        intro i hi p hp tr e
        refine ⟨1 / 4, 1 / 4, ?_⟩
        revert i p tr; decide +kernel
      have key : ∀ i : Fin 4, ∀ p < 4, ∀ tr ∈ rowOfTris[p]?, ∀ T ∈ rowOfTrisAxisPacket.t.get i :: rowOfTris.map (fun q =>
          (q.intersect4 rowOfTrisAxisPacket (Vec4.splat (lit 1 (-4)))).1.t.get i),
          hit4 (tr.mt (rowOfTrisAxisPacket.originOf i) (rowOfTrisAxisPacket.dirOf i)) (lit 1 (-4)) T = true →
          i ≠ 3 ∧ p < 3 ∧ T.Above ([6, 3, 10].getD p 0) := by
        decide +kernel
      intro p tr T e hT hacc
      rw [(intersect4_mt tr _ _).1 i] at hacc
      obtain ⟨h1, h2, h3⟩ := key i p (List.getElem?_eq_some_iff.1 e).1 tr e (T.get i) (by
        rcases hT with h | ⟨q, hq, h⟩
        · rw [h]; exact List.mem_cons_self
        · rw [h]; exact List.mem_cons_of_mem _ (List.mem_map.2 ⟨q, hq, rfl⟩)) (by revert i; exact fun i => by fin_cases i <;> exact fun _ h => h)
      have nn : ∀ p < 3, (0 : ℚ) ≤ [6, 3, 10].getD p 0 := by decide +kernel
      exact ⟨_, nn p h2, h3, has i h1 p h2 tr e⟩
  · decide +kernel
  · have key : (builtTree ((meshScene rowOfTris (some 1)).constructLocb (List.range 4) 2 5)).map (fun x =>
        decide (x.2.depth ≤ 22)) = some true := by decide +kernel
    obtain ⟨⟨bvh, T⟩, e, h2⟩ := Option.map_eq_some_iff.1 key
    obtain ⟨e1, e2⟩ := builtTree_some e
    exact ⟨bvh, T, e1, e2, of_decide_eq_true h2⟩

end Rtbvh
