import Verif.Props.SpatialPacket
import Verif.Proofs.FfiReplay
/- C92, triangle by triangle: shadow rays and packets through what `construct_spatial_sah` returns, in builds some of whose
moves overwrite references. -/
namespace Rtbvh
open FloatOps

/-- A shadow loop through a `Bvh`: it ends, it stops only at something that blocks, and it does not finish if something
blocks to which a path of boxes leads that the ray hits. -/
theorem shadow_some (b : Bvh Rat) (T : BTree Rat) (h : b.Denotes T) (hd : T.depth ≤ 31) (ray : Ray Rat)
    (cb : Ray Rat → Nat → Ray Rat × Bool) (hany : AnyHit cb) (hcb : ∀ r id, ∃ t, (cb r id).1 = { r with t := t })
    (fuel : Nat) (hf : T.rounds < fuel) :
    ((b.forIndices cb fuel ray).ending = .finished ∨ (b.forIndices cb fuel ray).ending = .stopped) ∧
    ((b.forIndices cb fuel ray).ending = .stopped → ∃ p ∈ T.ids b.indices, (cb ray p).2 = true) ∧
    ((b.forIndices cb fuel ray).ending = .finished → ∀ p,
      (T.Reaches b.indices p fun a => (a.intersect ray).isSome = true) → (cb ray p).2 = false) := by
  have href := fun cb => C20_ray_traversal_refines b T h hd ray rfl cb fuel hf
  have hA : AnyRun cb ray (b.forIndices cb fuel ray) := by
    rw [href]; exact T.visit_induct (anyRun_items hany) anyRun_seq ray
  refine ⟨by rw [href]; exact visit_ending T ray, fun hs => ?_, fun hfin p hp => ?_⟩
  · obtain ⟨init, p, h1, _, h3⟩ := hA.2 hs
    have hx : p ∈ (b.forIndices cb fuel ray).items := by rw [h1]; simp
    rw [href] at hx
    have h1 := visit_count_le (Inv := fun _ => True) (closer := closerRay) (hit := Aabb.intersect) (idx := b.indices)
      (cb := cb) (fun _ _ _ => trivial) (pass := fun _ => true) (fun _ _ _ _ => rfl) p T ray trivial
    exact ⟨p, List.count_pos_iff.1 (Nat.lt_of_lt_of_le (List.count_pos_iff.2 hx)
      (Nat.le_trans h1 (reach_count_le_ids _ _ _ T))), by rw [h3]⟩
  · refine (hA.1 hfin).2 p ?_
    have := hp.mem (pass := fun a => (a.intersect ray).isSome) fun _ h => h
    rw [← (C20_ray_traversal_exact b T h hd ray rfl (unbreak cb)
      (fun r id => by obtain ⟨t, e⟩ := hcb r id; exact ⟨t, by rw [unbreak, e]⟩) fuel hf).2.2.mem_iff] at this
    rw [href] at hfin this ⊢
    rw [T.visit_unbreak ray hfin] at this
    exact this

/-- The same through an `Mbvh`. -/
theorem shadow_some_mbvh (q : Mbvh Rat) (Q : QTree Rat) (h : q.Denotes Q) (hd : Q.stackNeed ≤ 32) (ray : Ray Rat)
    (cb : Ray Rat → Nat → Ray Rat × Bool) (hany : AnyHit cb) (hcb : ∀ (r : Ray Rat) id, r.Lowered (cb r id).1)
    (fuel : Nat) (hf : Q.rounds ≤ fuel) :
    ((q.forIndices cb fuel ray).ending = .finished ∨ (q.forIndices cb fuel ray).ending = .stopped) ∧
    ((q.forIndices cb fuel ray).ending = .stopped → ∃ p ∈ Q.ids q.primIndices, (cb ray p).2 = true) ∧
    ((q.forIndices cb fuel ray).ending = .finished → ∀ p,
      (Q.Reaches q.primIndices p fun a => quadTest a ray = true) → (cb ray p).2 = false) := by
  have href := (C28_traversal_refines q Q h hd fuel hf).1
  have hA : AnyRun cb ray (q.forIndices cb fuel ray) := by
    rw [href]; exact Q.visit_induct (anyRun_items hany) anyRun_seq ray
  refine ⟨by rw [href]; exact Q.visit_ending ray, fun hs => ?_, fun hfin p hp => ?_⟩
  · obtain ⟨init, p, h1, _, h3⟩ := hA.2 hs
    have hx : p ∈ (q.forIndices cb fuel ray).items := by rw [h1]; simp
    rw [href] at hx
    have h1 := Q.visit_count_le (Inv := fun _ => True) (cb := cb) (idx := q.primIndices) (fun _ _ _ => trivial)
      (pass := fun _ => true) quadHit_perm (fun _ _ _ _ _ => rfl) p ray trivial
    rw [Q.root_reach h.unfolds.root_isQuad] at h1
    exact ⟨p, List.count_pos_iff.1 (Nat.lt_of_lt_of_le (List.count_pos_iff.2 hx)
      (Nat.le_trans h1 (Q.reach_count_le_ids _ _ _))), by rw [h3]⟩
  · have hr := (hA.1 hfin).1
    refine (hA.1 hfin).2 p ?_
    have hge := Q.visit_count_ge_final (idx := q.primIndices) (cb := cb) Ray.Lowered.refl Ray.Lowered.trans
      hcb (pass := fun a => quadTest a ray) (fin := ray) (hit := quadHit) quadHit_perm
      (by
        intro bs r s hr hpass
        show (bs.map fun b => quadTest b r).get s = true
        rw [Vec4.get_map]
        exact quadTest_lowered hr hpass) p ray (by rw [← href]; exact hfin)
      (by rw [← href, hr]; exact Ray.Lowered.refl _)
    rw [Q.root_reach h.unfolds.root_isQuad, ← href] at hge
    exact List.count_pos_iff.1 (Nat.lt_of_lt_of_le (List.count_pos_iff.2 (hp.mem fun _ h => h)) hge)

/-- What a shadow loop over a mesh may be relied on for, if only some triangles are safe: it ends; if it breaks, some
triangle blocks the segment; if it does not, no safe triangle does. -/
def ShadowFor (tris : List (Triangle Rat)) (n : Nat) (safe : Nat → Prop) (ray : Ray Rat) (e : Ending) : Prop :=
  (e = .finished ∨ e = .stopped) ∧ (e = .stopped → Blocked tris n ray) ∧
  (e = .finished → ∀ p < n, safe p → ¬ ∃ s, ray.tMin < s ∧ s < ray.t ∧ MeshHit tris ray p s)

/-- C92 for shadow rays, triangle by triangle, exact arithmetic, whatever the moves do to other triangles: the shadow loop
breaks only if some triangle of the mesh blocks the segment, and it does break if a triangle blocks it that every move
spares and whose `split` cuts its box (or that is listed once).  Missing: triangles overwritten by a move
(`C92_missed_hit`). -/
theorem C92_spared_shadow_partial {tris : List (Triangle Rat)} {b : Builder Rat}
    {split : Nat → Fin 3 → Rat → Aabb Rat × Aabb Rat}
    {sort : Fin 3 → List (Ref Rat) → Option (List (Ref Rat))} {order ks : List Nat} (h : b.LegalSpatial order sort)
    (hfit : BoxesFit tris (boxAt (b.boxes order))) {bvh : Bvh Rat}
    (e : b.constructSpatialSah split sort order ks = .ok (.ok (some bvh)))
    {T : BTree Rat} (hU : Unfolds bvh.nodes 0 T) (ray : Ray Rat) (hw : ray.WellFormed) (hd : ray.direction.NonZero) :
    let safe := fun p => b.SparesSpatial split sort order (T.withIds bvh.indices) p ∧
      b.KeptWhole split order (T.ids bvh.indices) p
    (T.depth ≤ 31 → ∀ fuel ≥ 3 * referenceLimit Rat b.primitives.length + 2,
      ShadowFor tris b.primitives.length safe ray (bvh.forIndices (shadowCb tris) fuel ray).ending) ∧
    (T.depth ≤ 22 ∨ T.leaves ≤ 65 → ∀ depth > T.depth, ∃ q : Mbvh Rat, Mbvh.construct depth bvh = some q ∧
      ∃ N, ∀ fuel ≥ N,
        ShadowFor tris b.primitives.length safe ray (q.forIndices (shadowCb tris) fuel ray).ending) := by
  obtain ⟨T', hc, hr⟩ := C26_spatial_compact h e
  have := hU.det hc.unfolds; subst this
  obtain ⟨_, hU', _, _, _, _, _, hlt, _⟩ := spatial_built h e
  have := hU.det hU'; subst this
  intro safe
  have hreach : ∀ p < b.primitives.length, safe p → ∀ s, MeshHit tris ray p s →
      T.Reaches bvh.indices p fun a => a.Has (ray.getPointAt s) := by
    intro p hp hs s h3
    have hbox := meshHit_box hfit p s h3
    exact C76_spared_covered_partial h (fun a _ => rat_numeric a)
      (fun i a x => ⟨rat_numeric _, rat_numeric _⟩) p hp hs.1 _ hbox
      (hs.2.imp (fun e => by rw [e]; exact clipBox_splitKeeps hbox) id)
  have concl : ∀ {run : Run (Ray Rat) Nat}, (run.ending = .finished ∨ run.ending = .stopped) →
      (run.ending = .stopped → ∃ p ∈ T.ids bvh.indices, (shadowCb tris ray p).2 = true) →
      (run.ending = .finished → ∀ p < b.primitives.length, safe p → ∀ s, ray.tMin < s → s < ray.t → MeshHit tris ray p s →
        (shadowCb tris ray p).2 = false) →
      ShadowFor tris b.primitives.length safe ray run.ending := by
    intro run h1 h2 h3
    refine ⟨h1, fun hs => ?_, fun hf p hp hs => ?_⟩
    · obtain ⟨p, hp, hh⟩ := h2 hs
      exact ⟨p, hlt p hp, (shadow_iff tris ray p).1 hh⟩
    · rintro ⟨s, s1, s2, s3⟩
      have := h3 hf p hp hs s s1 s2 s3
      rw [(shadow_iff tris ray p).2 ⟨s, s1, s2, s3⟩] at this
      cases this
  refine ⟨fun hdep fuel hf => ?_, fun hdep k hk => ?_⟩
  · obtain ⟨h1, h2, h3⟩ := shadow_some bvh T hc.toDenotes hdep ray _ (shadow_anyHit tris)
      (fun r id => (shadow_lowered tris r id).1) fuel (by omega)
    refine concl h1 h2 fun hfin p hp hs s s1 s2 s3 => h3 hfin p ((hreach p hp hs s s3).imp fun a ha => ?_)
    exact ((C35_slab_exact (valid_of_has ha) hw hd).2.1).2 ⟨s, s1, ha⟩
  · obtain ⟨q, e1, e2, _, h2, _⟩ := construct_main bvh T hc k hk
    have need : T.toQuad.stackNeed ≤ 32 := by
      rcases hdep with hdep | hdep
      · refine C29_quad_depth _ ?_
        by_cases h1 : 1 ≤ T.depth
        · have := toQuad_depth' T h1; omega
        · have := toQuad_depth T; omega
      · have := toQuad_need T; omega
    refine ⟨q, e1, T.toQuad.rounds, fun fuel hf => ?_⟩
    obtain ⟨k1, k2, k3⟩ := shadow_some_mbvh q T.toQuad e2 need ray _ (shadow_anyHit tris) (shadow_lowered tris) fuel hf
    rw [toQuad_ids, h2] at k2
    rw [h2] at k3
    exact concl k1 k2 fun hfin p hp hs s s1 s2 s3 =>
      k3 hfin p ((hreach p hp hs s s3).imp fun a ha => quadTest_of_has hw hd ha s2).toQuad

/-! Packets. -/

theorem packet_some (b : Bvh Rat) (T : BTree Rat) (h : b.Denotes T) (hdep : T.depth ≤ 31) (pk : RayPacket4 Rat)
    (hw : pk.WellFormed)
    (hd : ∀ i, pk.directionX.get i ≠ 0 ∧ pk.directionY.get i ≠ 0 ∧ pk.directionZ.get i ≠ 0) (tm : Vec4 Rat)
    (h0 : ∀ i, 0 ≤ tm.get i) (hits : Fin 4 → Nat → Rat → Prop) (safe : Nat → Prop)
    (hhits : ∀ i, ∀ p ∈ T.ids b.indices, safe p → ∀ s, hits i p s → T.Reaches b.indices p (Aabb.Onward pk i s))
    (cb : RayPacket4 Rat → Nat → RayPacket4 Rat × Bool) (hcb : PacketClosest pk tm hits cb) (fuel : Nat)
    (hf : T.rounds < fuel) :
    ∃ t, (b.forIndicesPacket cb fuel pk).ray = { pk with t := t } ∧
      ∃ S, (∀ p ∈ S, p ∈ T.ids b.indices) ∧ (∀ p ∈ T.ids b.indices, safe p → p ∈ S) ∧
      ∀ i, IsNearestFrom (hits i) S (tm.get i) (pk.t.get i) (t.get i) := by
  classical
  have hn : pk.hasNaN = false := rfl
  have hrun := C23_packet_traversal_refines b T h hdep pk hn cb fuel hf
  obtain ⟨hfin, _, hcount, _⟩ := C23_packet_offered b T h hdep pk hn cb (packetClosest_lowered hcb) fuel hf
  have hray : (b.forIndicesPacket cb fuel pk).ray =
      (b.forIndicesPacket cb fuel pk).items.foldl (fun r x => (cb r x).1) pk := by
    rw [hrun]; exact visit_ray T pk
  obtain ⟨t, e, hnear⟩ := fold_packet hcb (b.forIndicesPacket cb fuel pk).items pk.t
  have hfr := hray.trans e
  have hsub : ∀ p ∈ (b.forIndicesPacket cb fuel pk).items, p ∈ T.ids b.indices := fun p hp =>
    List.count_pos_iff.1 (Nat.lt_of_lt_of_le (List.count_pos_iff.2 hp) (hcount p))
  refine ⟨t, hfr, (T.ids b.indices).filter fun p => decide (p ∈ (b.forIndicesPacket cb fuel pk).items ∨ safe p),
    fun p hp => (List.mem_filter.1 hp).1, fun p hp hs => List.mem_filter.2 ⟨hp, decide_eq_true (.inr hs)⟩,
    fun i => (hnear i).widen (fun p hp => List.mem_filter.2 ⟨hsub p hp, decide_eq_true (.inl hp)⟩)
      (fun p hp s hs h1 h2 h3 => ?_)⟩
  obtain ⟨hp, hor⟩ := List.mem_filter.1 hp
  rcases of_decide_eq_true hor with hor | hsafe
  · exact hor
  have hge := visit_count_ge_final (closer := closerPacket) (idx := b.indices) RayPacket4.Lowered.refl
    RayPacket4.Lowered.trans (fun r x => (packetClosest_lowered hcb r x).1) (pass := fun a => a.mask4 { pk with t := t } i)
    (fin := { pk with t := t }) (hit := Aabb.intersect4)
    (fun a r hr hpass => (intersect4_isSome _ _).2 ⟨i, mask4_lowered hr hpass⟩)
    p T pk (by rw [← hrun]; exact hfin) (by rw [← hrun, hfr]; exact RayPacket4.Lowered.refl _)
  rw [← hrun] at hge
  refine List.count_pos_iff.1 (Nat.lt_of_lt_of_le (List.count_pos_iff.2 ?_) hge)
  exact (hhits i p hp hsafe s hs).mem fun a ha =>
    (mask4_of_onward (p := { pk with t := t }) hw (hd i) ((h0 i).trans h1) h3 ha).1

theorem packet_some_mbvh (q : Mbvh Rat) (Q : QTree Rat) (h : q.Denotes Q) (hdep : Q.stackNeed ≤ 32) (pk : RayPacket4 Rat)
    (hw : pk.WellFormed)
    (hd : ∀ i, pk.directionX.get i ≠ 0 ∧ pk.directionY.get i ≠ 0 ∧ pk.directionZ.get i ≠ 0) (tm : Vec4 Rat)
    (h0 : ∀ i, 0 ≤ tm.get i) (hits : Fin 4 → Nat → Rat → Prop) (safe : Nat → Prop)
    (hhits : ∀ i, ∀ p ∈ Q.ids q.primIndices, safe p → ∀ s, hits i p s → Q.Reaches q.primIndices p (Aabb.Onward pk i s))
    (cb : RayPacket4 Rat → Nat → RayPacket4 Rat × Bool) (hcb : PacketClosest pk tm hits cb) (fuel : Nat)
    (hf : Q.rounds ≤ fuel) :
    ∃ t, (q.forIndicesPacket cb fuel pk).ray = { pk with t := t } ∧
      ∃ S, (∀ p ∈ S, p ∈ Q.ids q.primIndices) ∧ (∀ p ∈ Q.ids q.primIndices, safe p → p ∈ S) ∧
      ∀ i, IsNearestFrom (hits i) S (tm.get i) (pk.t.get i) (t.get i) := by
  classical
  have hrun := (C28_traversal_refines q Q h hdep fuel hf).2 cb pk
  obtain ⟨hfin, _, hcount, _⟩ := C28_packet_offered q Q h hdep pk cb (packetClosest_lowered hcb) fuel hf
  have hray : (q.forIndicesPacket cb fuel pk).ray =
      (q.forIndicesPacket cb fuel pk).items.foldl (fun r x => (cb r x).1) pk := by
    rw [hrun]; exact Q.visit_ray pk
  obtain ⟨t, e, hnear⟩ := fold_packet hcb (q.forIndicesPacket cb fuel pk).items pk.t
  have hfr := hray.trans e
  have hsub : ∀ p ∈ (q.forIndicesPacket cb fuel pk).items, p ∈ Q.ids q.primIndices := fun p hp =>
    List.count_pos_iff.1 (Nat.lt_of_lt_of_le (List.count_pos_iff.2 hp) (hcount p))
  refine ⟨t, hfr, (Q.ids q.primIndices).filter fun p => decide (p ∈ (q.forIndicesPacket cb fuel pk).items ∨ safe p),
    fun p hp => (List.mem_filter.1 hp).1, fun p hp hs => List.mem_filter.2 ⟨hp, decide_eq_true (.inr hs)⟩,
    fun i => (hnear i).widen (fun p hp => List.mem_filter.2 ⟨hsub p hp, decide_eq_true (.inl hp)⟩)
      (fun p hp s hs h1 h2 h3 => ?_)⟩
  obtain ⟨hp, hor⟩ := List.mem_filter.1 hp
  rcases of_decide_eq_true hor with hor | hsafe
  · exact hor
  have hge := Q.visit_count_ge_final (idx := q.primIndices) RayPacket4.Lowered.refl RayPacket4.Lowered.trans
    (fun r x => (packetClosest_lowered hcb r x).1) (pass := fun a => quadTest4 a { pk with t := t } i)
    (fin := { pk with t := t }) (hit := quadHit4) quadHit4_perm
    (by
      intro bs r s hr hpass
      show (bs.map fun b => (Vec4.ofFn (quadTest4 b r)).any).get s = true
      rw [Vec4.get_map]
      exact (Vec4.any_iff _).2 ⟨i, by rw [Vec4.get_ofFn]; exact quadTest4_lowered hr hpass⟩) p pk
    (by rw [← hrun]; exact hfin) (by rw [← hrun, hfr]; exact RayPacket4.Lowered.refl _)
  rw [Q.root_reach h.unfolds.root_isQuad, ← hrun] at hge
  refine List.count_pos_iff.1 (Nat.lt_of_lt_of_le (List.count_pos_iff.2 ?_) hge)
  exact (hhits i p hp hsafe s hs).mem fun a ha =>
    (mask4_of_onward (p := { pk with t := t }) hw (hd i) ((h0 i).trans h1) h3 ha).2

/-- C92 for packets, triangle by triangle, exact arithmetic, whatever the moves do to other triangles: `intersect4` on every
id that the packet traversal yields leaves in every lane the nearest hit over a set `S` of triangles of the mesh that has
every triangle that all moves spare and whose `split` cuts its box (or that is listed once), if the boxes handed to the
builder contain the triangles strictly.  Missing: triangles overwritten by a move (`C92_missed_hit`), and tight boxes
(`C92_packet_misses_flat`). -/
theorem C92_spared_packet_partial {tris : List (Triangle Rat)} {b : Builder Rat}
    {split : Nat → Fin 3 → Rat → Aabb Rat × Aabb Rat}
    {sort : Fin 3 → List (Ref Rat) → Option (List (Ref Rat))} {order ks : List Nat} (h : b.LegalSpatial order sort)
    (hfit : BoxesFitStrictly tris (boxAt (b.boxes order))) {bvh : Bvh Rat}
    (e : b.constructSpatialSah split sort order ks = .ok (.ok (some bvh)))
    {T : BTree Rat} (hU : Unfolds bvh.nodes 0 T)
    (pk : RayPacket4 Rat) (hw : pk.WellFormed)
    (hd : ∀ i, pk.directionX.get i ≠ 0 ∧ pk.directionY.get i ≠ 0 ∧ pk.directionZ.get i ≠ 0) (tm : Vec4 Rat)
    (h0 : ∀ i, 0 ≤ tm.get i) :
    let safe := fun p => b.SparesSpatial split sort order (T.withIds bvh.indices) p ∧
      b.KeptWhole split order (T.ids bvh.indices) p
    (T.depth ≤ 31 → ∀ fuel ≥ 3 * referenceLimit Rat b.primitives.length + 2, ∃ t,
      (bvh.forIndicesPacket (meshCb4 tris tm) fuel pk).ray = { pk with t := t } ∧
      ∃ S, (∀ p ∈ S, p < b.primitives.length) ∧ (∀ p < b.primitives.length, safe p → p ∈ S) ∧
        ∀ i, IsNearestFrom (MeshHit4 tris pk i) S (tm.get i) (pk.t.get i) (t.get i)) ∧
    (T.depth ≤ 22 ∨ T.leaves ≤ 65 → ∀ depth > T.depth, ∃ q : Mbvh Rat, Mbvh.construct depth bvh = some q ∧
      ∃ N, ∀ fuel ≥ N, ∃ t, (q.forIndicesPacket (meshCb4 tris tm) fuel pk).ray = { pk with t := t } ∧
        ∃ S, (∀ p ∈ S, p < b.primitives.length) ∧ (∀ p < b.primitives.length, safe p → p ∈ S) ∧
          ∀ i, IsNearestFrom (MeshHit4 tris pk i) S (tm.get i) (pk.t.get i) (t.get i)) := by
  obtain ⟨T', hc, hr⟩ := C26_spatial_compact h e
  have := hU.det hc.unfolds; subst this
  obtain ⟨_, hU', _, _, _, _, _, hlt, _⟩ := spatial_built h e
  have := hU.det hU'; subst this
  intro safe
  have hreach : ∀ i, ∀ p ∈ T.ids bvh.indices, safe p → ∀ s, MeshHit4 tris pk i p s →
      T.Reaches bvh.indices p (Aabb.Onward pk i s) := by
    intro i p hp hs s hh
    have hon := onward_of_contains (meshHit4_strict hfit i p s hh)
    exact spared_covers h (fun a _ => rat_numeric a) (fun i a x => ⟨rat_numeric _, rat_numeric _⟩) (onwardFilter pk i s)
      p (hlt p hp) hs.1 hon (hs.2.imp (fun e => by rw [e]; exact clipBox_onward hon) id)
  refine ⟨fun hdep fuel hf => ?_, fun hdep k hk => ?_⟩
  · obtain ⟨t, e1, S, s1, s2, e4⟩ := packet_some bvh T hc.toDenotes hdep pk hw hd tm h0 _ safe hreach _
      (meshCb4_closest tris tm pk) fuel (by omega)
    exact ⟨t, e1, S, fun p hp => hlt p (s1 p hp), fun p hp hs => s2 p (C42_spared_kept_partial h hp hs.1) hs, e4⟩
  · obtain ⟨q, e1, e2, _, h2, _⟩ := construct_main bvh T hc k hk
    have need : T.toQuad.stackNeed ≤ 32 := by
      rcases hdep with hdep | hdep
      · refine C29_quad_depth _ ?_
        by_cases h1 : 1 ≤ T.depth
        · have := toQuad_depth' T h1; omega
        · have := toQuad_depth T; omega
      · have := toQuad_need T; omega
    refine ⟨q, e1, T.toQuad.rounds, fun fuel hf => ?_⟩
    obtain ⟨t, k1, S, s1, s2, k4⟩ := packet_some_mbvh q T.toQuad e2 need pk hw hd tm h0 (MeshHit4 tris pk) safe (by
      rw [toQuad_ids, h2]
      exact fun i p hp hsf s hs => (hreach i p hp hsf s hs).toQuad) _ (meshCb4_closest tris tm pk) fuel hf
    rw [toQuad_ids, h2] at s1 s2
    exact ⟨t, k1, S, fun p hp => hlt p (s1 p hp), fun p hp hs => s2 p (C42_spared_kept_partial h hp hs.1) hs, k4⟩

/-! The three triangles of `lostScene` (C42) in exact arithmetic, with `split`s that cut the boxes: the build loses a
triangle, but the first is spared. -/

def lostTris : List (Triangle Rat) :=
  [⟨⟨0, 0, 0⟩, ⟨9, 1, 0⟩, ⟨0, 0, 1⟩⟩, ⟨⟨11, 0, 0⟩, ⟨12, 1, 0⟩, ⟨11, 0, 1⟩⟩, ⟨⟨13, 0, 0⟩, ⟨14, 1, 0⟩, ⟨13, 0, 1⟩⟩]
def lostBuilder : Builder Rat := meshScene lostTris none
def lostCut (i : Nat) : Fin 3 → Rat → Aabb Rat × Aabb Rat := clipBox (boxAt (lostBuilder.boxes [0, 1, 2]) i)
/-- Rays from above through the first and through the third triangle. -/
def downRay (x : Rat) : Ray Rat := Ray.new ⟨x, 5, 1 / 4⟩ ⟨1 / 1000, -1, 1 / 1000⟩

/-- The hypotheses of `C92_spared_shadow_partial` hold of a build that loses triangle 2: the loop breaks for the first
triangle, which is spared; for the third, which is lost, it does not, although the triangle blocks the ray. -/
example : ∃ (bvh : Bvh Rat) (T : BTree Rat), lostBuilder.LegalSpatial [0, 1, 2] refSort ∧
    lostBuilder.constructSpatialSah lostCut refSort [0, 1, 2] (List.replicate 10 0) = .ok (.ok (some bvh)) ∧
    Unfolds bvh.nodes 0 T ∧ T.depth ≤ 22 ∧ T.ids bvh.indices = [0, 1, 1] ∧
    BoxesFit lostTris (boxAt (lostBuilder.boxes [0, 1, 2])) ∧
    lostBuilder.SparesSpatial lostCut refSort [0, 1, 2] (T.withIds bvh.indices) 0 ∧
    lostBuilder.KeptWhole lostCut [0, 1, 2] (T.ids bvh.indices) 0 ∧
    (downRay 3).WellFormed ∧ (downRay 3).direction.NonZero ∧
    (bvh.forIndices (shadowCb lostTris) 100 (downRay 3)).ending = .stopped ∧
    (shadowCb lostTris (downRay (53 / 4)) 2).2 = true ∧
    (bvh.forIndices (shadowCb lostTris) 100 (downRay (53 / 4))).ending = .finished := by
  have key : (spatialBuilt (lostBuilder.constructSpatialSah lostCut refSort [0, 1, 2] (List.replicate 10 0))).map
      (fun x => decide (x.2.depth ≤ 22 ∧ x.2.ids x.1.indices = [0, 1, 1] ∧
        (x.1.forIndices (shadowCb lostTris) 100 (downRay 3)).ending = .stopped ∧
        (x.1.forIndices (shadowCb lostTris) 100 (downRay (53 / 4))).ending = .finished)) = some true := by decide +kernel
  rw [Option.map_eq_some_iff] at key
  obtain ⟨⟨bvh, T⟩, h1, h2⟩ := key
  obtain ⟨e, hU⟩ := spatialBuilt_some h1
  obtain ⟨h2, h3, h4, h5⟩ := of_decide_eq_true h2
  have hl : lostBuilder.LegalSpatial [0, 1, 2] refSort :=
    { nonempty := by decide, boxes := by decide, order := by decide, small := by decide
      fits := by decide +kernel
      sorts := refSort_sorts }
  exact ⟨bvh, T, hl, e, hU, h2, h3, meshScene_fit _ _ _, sparing_spatial (p := 0) hl e hU (by decide +kernel), .inl rfl,
    by decide +kernel, by decide +kernel, h4, by decide +kernel, h5⟩

/-- The same triangles in boxes with a margin. -/
def lostMargin : Builder Rat :=
  { lostBuilder with
    aabbs := some (lostTris.map fun tr => ⟨(triPrim tr).aabb.min.sub (Vec3.splat (1 / 8)), 0,
      (triPrim tr).aabb.max.add (Vec3.splat (1 / 8)), 0⟩) }
def marginCut (i : Nat) : Fin 3 → Rat → Aabb Rat × Aabb Rat := clipBox (boxAt (lostMargin.boxes [0, 1, 2]) i)
def downPacket : RayPacket4 Rat :=
  RayPacket4.new (fun i => ⟨3 + i.val, 5, 1 / 4, 1⟩) (fun _ => ⟨1 / 1000, -1, 1 / 1000, 0⟩)

/-- The hypotheses of `C92_spared_packet_partial` hold of a build that loses triangle 2; triangle 0 is spared, and the
packet finds it. -/
example : ∃ (bvh : Bvh Rat) (T : BTree Rat), lostMargin.LegalSpatial [0, 1, 2] refSort ∧
    lostMargin.constructSpatialSah marginCut refSort [0, 1, 2] (List.replicate 10 0) = .ok (.ok (some bvh)) ∧
    Unfolds bvh.nodes 0 T ∧ T.depth ≤ 22 ∧ 2 ∉ T.ids bvh.indices ∧
    BoxesFitStrictly lostTris (boxAt (lostMargin.boxes [0, 1, 2])) ∧
    lostMargin.SparesSpatial marginCut refSort [0, 1, 2] (T.withIds bvh.indices) 0 ∧
    lostMargin.KeptWhole marginCut [0, 1, 2] (T.ids bvh.indices) 0 ∧
    downPacket.WellFormed ∧
    (bvh.forIndicesPacket (meshCb4 lostTris (Vec4.splat 0)) 100 downPacket).ray.t.get 0 < 5 := by
  have key : (spatialBuilt (lostMargin.constructSpatialSah marginCut refSort [0, 1, 2] (List.replicate 10 0))).map
      (fun x => decide (x.2.depth ≤ 22 ∧ 2 ∉ x.2.ids x.1.indices ∧
        (x.1.forIndicesPacket (meshCb4 lostTris (Vec4.splat 0)) 100 downPacket).ray.t.get 0 < 5)) = some true := by
    decide +kernel
  rw [Option.map_eq_some_iff] at key
  obtain ⟨⟨bvh, T⟩, h1, h2⟩ := key
  obtain ⟨e, hU⟩ := spatialBuilt_some h1
  obtain ⟨h2, h3, h4⟩ := of_decide_eq_true h2
  have hl : lostMargin.LegalSpatial [0, 1, 2] refSort :=
    { nonempty := by decide, boxes := by decide, order := by decide, small := by decide
      fits := by decide +kernel
      sorts := refSort_sorts }
  have hfit : BoxesFitStrictly lostTris (boxAt (lostMargin.boxes [0, 1, 2])) := by
    intro p tr hp
    have hlt : p < 3 := by
      obtain ⟨hlt, _⟩ := List.getElem?_eq_some_iff.1 hp; exact hlt
    match p, hlt with
    | 0, _ => cases hp; decide +kernel
    | 1, _ => cases hp; decide +kernel
    | 2, _ => cases hp; decide +kernel
  exact ⟨bvh, T, hl, e, hU, h2, h3, hfit, sparing_spatial (p := 0) hl e hU (by decide +kernel), .inl rfl,
    by unfold RayPacket4.WellFormed; decide +kernel, h4⟩

end Rtbvh
