import Verif.Props.SpatialQuery
import Verif.Props.AnyHit
import Verif.Props.PacketLanes
/- C92: shadow rays and packets through what `construct_spatial_sah` returns. -/
namespace Rtbvh
open FloatOps

/-! Shadow rays. -/

/-- C69 on a `Bvh` with a path of boxes that the ray hits instead of containment. -/
theorem C69_bvh_covered {F : Type} [FloatOps F] (b : Bvh F) (T : BTree F) (h : b.Denotes T) (hd : T.depth ≤ 31)
    (ray : Ray F) (hn : ray.hasNaN = false) (cb : Ray F → Nat → Ray F × Bool) (hany : AnyHit cb)
    (hcb : ∀ r id, ∃ t, (cb r id).1 = { r with t := t })
    (hbox : ∀ p ∈ T.ids b.indices, (cb ray p).2 = true →
      T.Reaches b.indices p fun a => (a.intersect ray).isSome = true)
    (fuel : Nat) (hf : T.rounds < fuel) :
    Occlusion cb (T.ids b.indices) ray (b.forIndices cb fuel ray) := by
  have href := fun cb => C20_ray_traversal_refines b T h hd ray hn cb fuel hf
  refine occlusion_of ?_ ?_ ?_ ?_
  · rw [href]; exact T.visit_induct (anyRun_items hany) anyRun_seq ray
  · rw [href]; exact visit_ending T ray
  · intro x hx
    rw [href] at hx
    have h1 := visit_count_le (Inv := fun _ => True) (closer := closerRay) (hit := Aabb.intersect) (idx := b.indices)
      (cb := cb) (fun _ _ _ => trivial) (pass := fun _ => true) (fun _ _ _ _ => rfl) x T ray trivial
    exact List.count_pos_iff.1 (Nat.lt_of_lt_of_le (List.count_pos_iff.2 hx)
      (Nat.le_trans h1 (reach_count_le_ids _ _ _ T)))
  · intro hfin p hp hc
    have := (hbox p hp hc).mem (pass := fun a => (a.intersect ray).isSome) fun _ h => h
    rw [← (C20_ray_traversal_exact b T h hd ray hn (unbreak cb)
      (fun r id => by obtain ⟨t, e⟩ := hcb r id; exact ⟨t, by rw [unbreak, e]⟩) fuel hf).2.2.mem_iff] at this
    rw [href] at hfin this ⊢
    rw [T.visit_unbreak ray hfin] at this
    exact this

section lawful
variable {F : Type} [FloatOps F] [LawfulFloat F]

/-- C69 on an `Mbvh` with a path. -/
theorem C69_mbvh_covered (q : Mbvh F) (Q : QTree F) (h : q.Denotes Q) (hd : Q.stackNeed ≤ 32) (ray : Ray F)
    (cb : Ray F → Nat → Ray F × Bool) (hany : AnyHit cb) (hcb : ∀ (r : Ray F) id, r.Lowered (cb r id).1)
    (hbox : ∀ p ∈ Q.ids q.primIndices, (cb ray p).2 = true → Q.Reaches q.primIndices p fun a => quadTest a ray = true)
    (fuel : Nat) (hf : Q.rounds ≤ fuel) :
    Occlusion cb (Q.ids q.primIndices) ray (q.forIndices cb fuel ray) := by
  have href := (C28_traversal_refines q Q h hd fuel hf).1
  have hA : AnyRun cb ray (q.forIndices cb fuel ray) := by
    rw [href]; exact Q.visit_induct (anyRun_items hany) anyRun_seq ray
  refine occlusion_of hA ?_ ?_ ?_
  · rw [href]; exact Q.visit_ending ray
  · intro x hx
    rw [href] at hx
    have h1 := Q.visit_count_le (Inv := fun _ => True) (cb := cb) (idx := q.primIndices) (fun _ _ _ => trivial)
      (pass := fun _ => true) quadHit_perm (fun _ _ _ _ _ => rfl) x ray trivial
    rw [Q.root_reach h.unfolds.root_isQuad] at h1
    exact List.count_pos_iff.1 (Nat.lt_of_lt_of_le (List.count_pos_iff.2 hx)
      (Nat.le_trans h1 (Q.reach_count_le_ids _ _ _)))
  · intro hfin p hp hc
    have hr := (hA.1 hfin).1
    have hge := Q.visit_count_ge_final (idx := q.primIndices) (cb := cb) Ray.Lowered.refl Ray.Lowered.trans
      hcb (pass := fun a => quadTest a ray) (fin := ray) (hit := quadHit) quadHit_perm
      (by
        intro bs r s hr hpass
        show (bs.map fun b => quadTest b r).get s = true
        rw [Vec4.get_map]
        exact quadTest_lowered hr hpass) p ray (by rw [← href]; exact hfin)
      (by rw [← href, hr]; exact Ray.Lowered.refl _)
    rw [Q.root_reach h.unfolds.root_isQuad, ← href] at hge
    exact List.count_pos_iff.1 (Nat.lt_of_lt_of_le (List.count_pos_iff.2 ((hbox p hp hc).mem fun _ h => h)) hge)

end lawful

theorem BTree.Reaches.imp {F : Type} {idx : List Nat} {p : Nat} {P Q : Aabb F → Prop}
    (hpq : ∀ a, P a → Q a) {T : BTree F} (h : T.Reaches idx p P) : T.Reaches idx p Q := by
  induction T with
  | leaf => exact ⟨hpq _ h.1, h.2⟩
  | node b l r ihl ihr => exact ⟨hpq _ h.1, h.2.imp ihl ihr⟩

/-- The answer of a shadow loop over ids that list every primitive. -/
theorem blocked_of {tris : List (Triangle Rat)} {n : Nat} {ray : Ray Rat} {ids : List Nat} {run : Run (Ray Rat) Nat}
    (hids : ∀ p, p ∈ ids ↔ p ∈ List.range n) (ho : Occlusion (shadowCb tris) ids ray run) :
    (run.ending = .stopped ↔ Blocked tris n ray) ∧ (run.ending = .finished ↔ ¬ Blocked tris n ray) := by
  have hB : Blocked tris n ray ↔ ∃ p ∈ ids, (shadowCb tris ray p).2 = true := by
    constructor
    · rintro ⟨p, h1, h2⟩
      exact ⟨p, (hids p).2 (List.mem_range.2 h1), (shadow_iff tris ray p).2 h2⟩
    · rintro ⟨p, h1, h2⟩
      exact ⟨p, List.mem_range.1 ((hids p).1 h1), (shadow_iff tris ray p).1 h2⟩
  refine ⟨ho.1.trans hB.symm, ho.2.1.trans ?_⟩
  rw [hB]
  constructor
  · rintro h ⟨p, h1, h2⟩; rw [h p h1] at h2; cases h2
  · intro h p h1
    cases hc : (shadowCb tris ray p).2 with
    | false => rfl
    | true => exact absurd ⟨p, h1, hc⟩ h

/-- C92 for shadow rays, the part that holds: without a harmful move the shadow loop over a mesh whose `split` cuts the
triangles' boxes (or any other `split` if no triangle is listed twice) breaks exactly if some triangle of the mesh blocks the segment; through the `Bvh` and its `Mbvh`.
Missing: builds with a harmful move, as in `C92_spatial_nearest_partial`. -/
theorem C92_shadow_partial {tris : List (Triangle Rat)} {b : Builder Rat}
    {split : Nat → Fin 3 → Rat → Aabb Rat × Aabb Rat}
    {sort : Fin 3 → List (Ref Rat) → Option (List (Ref Rat))} {order ks : List Nat} (h : b.LegalSpatial order sort)
    (hfit : BoxesFit tris (boxAt (b.boxes order))) {bvh : Bvh Rat}
    (e : b.constructSpatialSah split sort order ks = .ok (.ok (some bvh)))
    {T : BTree Rat} (hU : Unfolds bvh.nodes 0 T)
    (hq : b.QuietSpatial split sort order (T.withIds bvh.indices))
    (hk : ∀ p < b.primitives.length, b.KeptWhole split order (T.ids bvh.indices) p)
    (ray : Ray Rat) (hw : ray.WellFormed) (hd : ray.direction.NonZero) :
    (T.depth ≤ 31 → ∀ fuel ≥ 3 * referenceLimit Rat b.primitives.length + 2,
      ((bvh.forIndices (shadowCb tris) fuel ray).ending = .stopped ↔ Blocked tris b.primitives.length ray) ∧
      ((bvh.forIndices (shadowCb tris) fuel ray).ending = .finished ↔ ¬ Blocked tris b.primitives.length ray)) ∧
    (T.depth ≤ 22 ∨ T.leaves ≤ 65 → ∀ depth > T.depth, ∃ q : Mbvh Rat, Mbvh.construct depth bvh = some q ∧
      ∃ N, ∀ fuel ≥ N,
        ((q.forIndices (shadowCb tris) fuel ray).ending = .stopped ↔ Blocked tris b.primitives.length ray) ∧
        ((q.forIndices (shadowCb tris) fuel ray).ending = .finished ↔ ¬ Blocked tris b.primitives.length ray)) := by
  obtain ⟨T', hc, hr⟩ := C26_spatial_compact h e
  have := hU.det hc.unfolds; subst this
  obtain ⟨_, hU', _, _, _, _, _, hlt, _⟩ := spatial_built h e
  have := hU.det hU'; subst this
  have hids : ∀ p, p ∈ T.ids bvh.indices ↔ p ∈ List.range b.primitives.length := fun p =>
    ⟨fun hp => List.mem_range.2 (hlt p hp), fun hp => C42_no_harm_keeps_partial h hq p (List.mem_range.1 hp)⟩
  have hreach : ∀ p ∈ T.ids bvh.indices, (shadowCb tris ray p).2 = true → ∃ s, ray.tMin < s ∧ s < ray.t ∧
      T.Reaches bvh.indices p fun a => a.Has (ray.getPointAt s) := by
    intro p hp hh
    obtain ⟨s, h1, h2, h3⟩ := (shadow_iff tris ray p).1 hh
    have hbox := meshHit_box hfit p s h3
    exact ⟨s, h1, h2, C76_spared_covered_partial h (fun a _ => rat_numeric a)
      (fun i a x => ⟨rat_numeric _, rat_numeric _⟩) p (hlt p hp) (hq.spares p) _ hbox
      ((hk p (hlt p hp)).imp (fun e => by rw [e]; exact clipBox_splitKeeps hbox) id)⟩
  refine ⟨fun hdep fuel hf => ?_, fun hdep k hk => ?_⟩
  · refine blocked_of hids (C69_bvh_covered bvh T hc.toDenotes hdep ray rfl _ (shadow_anyHit tris)
      (fun r id => (shadow_lowered tris r id).1) (fun p hp hh => ?_) fuel (by omega))
    obtain ⟨s, h1, h2, h3⟩ := hreach p hp hh
    exact h3.imp fun a ha => ((C35_slab_exact (valid_of_has ha) hw hd).2.1).2 ⟨s, h1, ha⟩
  · obtain ⟨q, e1, e2, _, h2, _⟩ := construct_main bvh T hc k hk
    have need : T.toQuad.stackNeed ≤ 32 := by
      rcases hdep with hdep | hdep
      · refine C29_quad_depth _ ?_
        by_cases h1 : 1 ≤ T.depth
        · have := toQuad_depth' T h1; omega
        · have := toQuad_depth T; omega
      · have := toQuad_need T; omega
    refine ⟨q, e1, T.toQuad.rounds, fun fuel hf => ?_⟩
    refine blocked_of (ids := T.toQuad.ids q.primIndices) (by rw [toQuad_ids, h2]; exact hids)
      (C69_mbvh_covered q T.toQuad e2 need ray _ (shadow_anyHit tris) (shadow_lowered tris) ?_ fuel hf)
    rw [toQuad_ids, h2]
    intro p hp hh
    obtain ⟨s, _, h2, h3⟩ := hreach p hp hh
    exact (h3.imp fun a ha => quadTest_of_has hw hd ha h2).toQuad

/-! Packets. -/

/-- The box has lane `i`'s point at `s` and a bit of its ray beyond. -/
def Aabb.Onward (pk : RayPacket4 Rat) (i : Fin 4) (s : Rat) (a : Aabb Rat) : Prop :=
  ∃ s' > s, a.Has (pk.pointAt i s) ∧ a.Has (pk.pointAt i s')

theorem pointAt_between {pk : RayPacket4 Rat} {i : Fin 4} {a : Aabb Rat} {s s' u : Rat} (h : a.Has (pk.pointAt i s))
    (h' : a.Has (pk.pointAt i s')) (h1 : s ≤ u) (h2 : u ≤ s') : a.Has (pk.pointAt i u) := by
  have key : ∀ {m M o d : Rat}, m ≤ o + s * d ∧ o + s * d ≤ M → m ≤ o + s' * d ∧ o + s' * d ≤ M →
      m ≤ o + u * d ∧ o + u * d ≤ M := by
    intro m M o d ⟨a1, a2⟩ ⟨b1, b2⟩
    rcases le_total 0 d with hd | hd
    · constructor
      · have := mul_le_mul_of_nonneg_right h1 hd; linarith
      · have := mul_le_mul_of_nonneg_right h2 hd; linarith
    · constructor
      · have := mul_le_mul_of_nonpos_right h2 hd; linarith
      · have := mul_le_mul_of_nonpos_right h1 hd; linarith
  rw [has_rat] at h h' ⊢
  exact ⟨key h.1 h'.1, key h.2.1 h'.2.1, key h.2.2 h'.2.2⟩

theorem onwardFilter (pk : RayPacket4 Rat) (i : Fin 4) (s : Rat) : BoxFilter (Aabb.Onward pk i s) where
  mono := fun h ⟨s', h1, h2, h3⟩ => ⟨s', h1, h.has h2, h.has h3⟩
  inter := by
    rintro a b ⟨s1, h1, h2, h3⟩ ⟨s2, k1, k2, k3⟩
    rcases le_total s1 s2 with h | h
    · exact ⟨s1, h1, shrink_has h2 k2, shrink_has h3 (pointAt_between k2 k3 (le_of_lt h1) h)⟩
    · exact ⟨s2, k1, shrink_has h2 k2, shrink_has (pointAt_between h2 h3 (le_of_lt k1) h) k3⟩

/-- Cutting the primitive's own box at a plane keeps, on one side, the point and a bit of the ray beyond. -/
theorem clipBox_onward {box : Aabb Rat} {pk : RayPacket4 Rat} {i : Fin 4} {s : Rat} (h : box.Onward pk i s) :
    SplitKeeps (clipBox box) (Aabb.Onward pk i s) := by
  intro a pos
  obtain ⟨s', hs, h1, h2⟩ := h
  -- a single axis: both points are in `[m, M]`
  have key : ∀ {m M o d : Rat}, (m ≤ o + s * d ∧ o + s * d ≤ M) → (m ≤ o + s' * d ∧ o + s' * d ≤ M) →
      ∃ u > s, u ≤ s' ∧
      ((o + s * d ≤ (if (pos <. M) = true then pos else M) ∧ o + u * d ≤ (if (pos <. M) = true then pos else M)) ∨
       ((if (m <. pos) = true then pos else m) ≤ o + s * d ∧ (if (m <. pos) = true then pos else m) ≤ o + u * d)) := by
    intro m M o d ⟨a1, a2⟩ ⟨b1, b2⟩
    have up : ∀ {x}, x ≤ pos → x ≤ M → x ≤ (if (pos <. M) = true then pos else M) := by
      intro x h1 h2; split <;> assumption
    have dn : ∀ {x}, pos ≤ x → m ≤ x → (if (m <. pos) = true then pos else m) ≤ x := by
      intro x h1 h2; split <;> assumption
    rcases le_total (o + s * d) pos with hp | hp <;> rcases le_total (o + s' * d) pos with hp' | hp'
    · exact ⟨s', hs, le_refl _, .inl ⟨up hp a2, up hp' b2⟩⟩
    · rcases eq_or_lt_of_le hp with he | hlt
      · exact ⟨s', hs, le_refl _, .inr ⟨dn (le_of_eq he.symm) a1, dn hp' b1⟩⟩
      · have hd : 0 < d := by
          by_contra hn
          have := mul_le_mul_of_nonpos_right (le_of_lt hs) (not_lt.1 hn)
          linarith
        have e : o + (pos - o) / d * d = pos := by rw [div_mul_cancel₀ _ (ne_of_gt hd)]; ring
        refine ⟨(pos - o) / d, ?_, ?_, .inl ⟨up hp a2, ?_⟩⟩
        · rw [gt_iff_lt, lt_div_iff₀ hd]; linarith
        · rw [div_le_iff₀ hd]; linarith
        · rw [e]; exact up (le_refl _) (hp'.trans b2)
    · rcases eq_or_lt_of_le hp with he | hlt
      · exact ⟨s', hs, le_refl _, .inl ⟨up (le_of_eq he.symm) a2, up hp' b2⟩⟩
      · have hd : d < 0 := by
          by_contra hn
          have := mul_le_mul_of_nonneg_right (le_of_lt hs) (not_lt.1 hn)
          linarith
        have e : o + (pos - o) / d * d = pos := by rw [div_mul_cancel₀ _ (ne_of_lt hd)]; ring
        refine ⟨(pos - o) / d, ?_, ?_, .inr ⟨dn hp a1, ?_⟩⟩
        · rw [gt_iff_lt, lt_div_iff_of_neg hd]; linarith
        · rw [div_le_iff_of_neg hd]; linarith
        · rw [e]; exact dn (le_refl _) (b1.trans hp')
    · exact ⟨s', hs, le_refl _, .inr ⟨dn hp a1, dn hp' b1⟩⟩
  have fill : ∀ {u}, u > s → u ≤ s' → box.Has (pk.pointAt i u) := fun hu hu' => pointAt_between h1 h2 (le_of_lt hu) hu'
  have g1 := has_rat.1 h1
  have g2 := has_rat.1 h2
  match a with
  | 0 =>
    obtain ⟨u, hu, hu', k⟩ := key g1.1 g2.1
    have g3 := has_rat.1 (fill hu hu')
    rcases k with ⟨k1, k2⟩ | ⟨k1, k2⟩
    · exact .inl ⟨u, hu, has_rat.2 ⟨⟨g1.1.1, k1⟩, g1.2.1, g1.2.2⟩, has_rat.2 ⟨⟨g3.1.1, k2⟩, g3.2.1, g3.2.2⟩⟩
    · exact .inr ⟨u, hu, has_rat.2 ⟨⟨k1, g1.1.2⟩, g1.2.1, g1.2.2⟩, has_rat.2 ⟨⟨k2, g3.1.2⟩, g3.2.1, g3.2.2⟩⟩
  | 1 =>
    obtain ⟨u, hu, hu', k⟩ := key g1.2.1 g2.2.1
    have g3 := has_rat.1 (fill hu hu')
    rcases k with ⟨k1, k2⟩ | ⟨k1, k2⟩
    · exact .inl ⟨u, hu, has_rat.2 ⟨g1.1, ⟨g1.2.1.1, k1⟩, g1.2.2⟩, has_rat.2 ⟨g3.1, ⟨g3.2.1.1, k2⟩, g3.2.2⟩⟩
    · exact .inr ⟨u, hu, has_rat.2 ⟨g1.1, ⟨k1, g1.2.1.2⟩, g1.2.2⟩, has_rat.2 ⟨g3.1, ⟨k2, g3.2.1.2⟩, g3.2.2⟩⟩
  | 2 =>
    obtain ⟨u, hu, hu', k⟩ := key g1.2.2 g2.2.2
    have g3 := has_rat.1 (fill hu hu')
    rcases k with ⟨k1, k2⟩ | ⟨k1, k2⟩
    · exact .inl ⟨u, hu, has_rat.2 ⟨g1.1, g1.2.1, ⟨g1.2.2.1, k1⟩⟩, has_rat.2 ⟨g3.1, g3.2.1, ⟨g3.2.2.1, k2⟩⟩⟩
    · exact .inr ⟨u, hu, has_rat.2 ⟨g1.1, g1.2.1, ⟨k1, g1.2.2.2⟩⟩, has_rat.2 ⟨g3.1, g3.2.1, ⟨k2, g3.2.2.2⟩⟩⟩

/-- A point strictly inside a box goes on inside for a bit. -/
theorem onward_of_contains {box : Aabb Rat} {pk : RayPacket4 Rat} {i : Fin 4} {s : Rat}
    (h : box.contains (pk.pointAt i s) = true) : box.Onward pk i s := by
  have key : ∀ {m M o d : Rat}, m < o + s * d ∧ o + s * d < M → ∃ u > s, m ≤ o + u * d ∧ o + u * d ≤ M := by
    intro m M o d ⟨h1, h2⟩
    rcases lt_trichotomy d 0 with hd | hd | hd
    · refine ⟨(m - o) / d, by rw [gt_iff_lt, lt_div_iff_of_neg hd]; linarith, ?_⟩
      rw [div_mul_cancel₀ _ (ne_of_lt hd)]; constructor <;> linarith
    · subst hd; exact ⟨s + 1, by linarith, by linarith, by linarith⟩
    · refine ⟨(M - o) / d, by rw [gt_iff_lt, lt_div_iff₀ hd]; linarith, ?_⟩
      rw [div_mul_cancel₀ _ (ne_of_gt hd)]; constructor <;> linarith
  obtain ⟨hx, hy, hz⟩ := contains_rat.1 h
  obtain ⟨ux, ux1, ux2⟩ := key hx
  obtain ⟨uy, uy1, uy2⟩ := key hy
  obtain ⟨uz, uz1, uz2⟩ := key hz
  have between : ∀ {m M o d s' u : Rat}, m < o + s * d ∧ o + s * d < M → m ≤ o + s' * d ∧ o + s' * d ≤ M → s ≤ u →
      u ≤ s' → m ≤ o + u * d ∧ o + u * d ≤ M := by
    intro m M o d s' u ⟨a1, a2⟩ ⟨b1, b2⟩ h1 h2
    rcases le_total 0 d with hd | hd
    · constructor
      · have := mul_le_mul_of_nonneg_right h1 hd; linarith
      · have := mul_le_mul_of_nonneg_right h2 hd; linarith
    · constructor
      · have := mul_le_mul_of_nonpos_right h2 hd; linarith
      · have := mul_le_mul_of_nonpos_right h1 hd; linarith
  have hmin : s < Min.min ux (Min.min uy uz) := lt_min ux1 (lt_min uy1 uz1)
  refine ⟨Min.min ux (Min.min uy uz), hmin, ?_, ?_⟩
  · rw [has_rat]
    exact ⟨⟨le_of_lt hx.1, le_of_lt hx.2⟩, ⟨le_of_lt hy.1, le_of_lt hy.2⟩, le_of_lt hz.1, le_of_lt hz.2⟩
  · rw [has_rat]
    exact ⟨between hx ux2 (le_of_lt hmin) (min_le_left _ _),
      between hy uy2 (le_of_lt hmin) ((min_le_right _ _).trans (min_le_left _ _)),
      between hz uz2 (le_of_lt hmin) ((min_le_right _ _).trans (min_le_right _ _))⟩

/-- The packet tests accept a lane that goes on in the box for a bit, at some `s ≥ 0` before the lane's `t`. -/
theorem mask4_of_onward {a : Aabb Rat} {p : RayPacket4 Rat} (hw : p.WellFormed) {i : Fin 4}
    (hd : p.directionX.get i ≠ 0 ∧ p.directionY.get i ≠ 0 ∧ p.directionZ.get i ≠ 0) {s : Rat} (h0 : 0 ≤ s)
    (ht : s < p.t.get i) (h : a.Onward p i s) : a.mask4 p i = true ∧ quadTest4 a p i = true := by
  obtain ⟨s', hs, h1, h2⟩ := h
  obtain ⟨vx, vy, vz⟩ := valid_rat (valid_of_has h1)
  obtain ⟨ex, ey, ez⟩ := packet_inv hw i
  rw [has_rat] at h1 h2
  have key : ∀ {s}, (a.min.x ≤ (p.pointAt i s).x ∧ (p.pointAt i s).x ≤ a.max.x) ∧
      (a.min.y ≤ (p.pointAt i s).y ∧ (p.pointAt i s).y ≤ a.max.y) ∧
      (a.min.z ≤ (p.pointAt i s).z ∧ (p.pointAt i s).z ≤ a.max.z) →
      ((a.lane4 p i).1 ≤ s ∧ s ≤ (a.lane4 p i).2) ∧ (quadLane4 a p i).1 ≤ s ∧ s ≤ (quadLane4 a p i).2 := by
    intro s h
    have ix := (axis_iff (o := p.originX.get i) (s := s) hd.1 vx).2.1 h.1
    have iy := (axis_iff (o := p.originY.get i) (s := s) hd.2.1 vy).2.1 h.2.1
    have iz := (axis_iff (o := p.originZ.get i) (s := s) hd.2.2 vz).2.1 h.2.2
    constructor
    · unfold Aabb.lane4
      simp only [rat_vmin, rat_vmax, ex, ey, ez, max_le_iff, le_min_iff]
      exact ⟨⟨ix.1, iy.1, iz.1⟩, ix.2, iy.2, iz.2⟩
    · unfold quadLane4
      simp only [rat_vmin, rat_vmax, ex, ey, ez, max_le_iff, le_min_iff]
      exact ⟨⟨⟨ix.1, iy.1⟩, iz.1⟩, ⟨ix.2, iy.2⟩, iz.2⟩
  obtain ⟨⟨l1, _⟩, q1, _⟩ := key h1
  obtain ⟨⟨_, l2⟩, _, q2⟩ := key h2
  constructor
  · unfold Aabb.mask4
    simp only [Bool.and_eq_true, rat_ge_iff, rat_zero, rat_lt]
    exact ⟨⟨by linarith, by linarith⟩, by linarith⟩
  · unfold quadTest4
    simp only [Bool.and_eq_true, rat_ge_iff, rat_lt]
    exact ⟨by linarith, by linarith⟩

/-- C70 on a `Bvh` with paths of boxes in which the lane goes on. -/
theorem C70_bvh_covered (b : Bvh Rat) (T : BTree Rat) (h : b.Denotes T) (hdep : T.depth ≤ 31) (pk : RayPacket4 Rat)
    (hw : pk.WellFormed)
    (hd : ∀ i, pk.directionX.get i ≠ 0 ∧ pk.directionY.get i ≠ 0 ∧ pk.directionZ.get i ≠ 0) (tm : Vec4 Rat)
    (h0 : ∀ i, 0 ≤ tm.get i) (hits : Fin 4 → Nat → Rat → Prop)
    (hhits : ∀ i, ∀ p ∈ T.ids b.indices, ∀ s, hits i p s → T.Reaches b.indices p (Aabb.Onward pk i s))
    (cb : RayPacket4 Rat → Nat → RayPacket4 Rat × Bool) (hcb : PacketClosest pk tm hits cb) (fuel : Nat)
    (hf : T.rounds < fuel) :
    ∃ t, (b.forIndicesPacket cb fuel pk).ray = { pk with t := t } ∧
      (b.forIndicesPacket cb fuel pk).items.foldl (fun r x => (cb r x).1) pk = { pk with t := t } ∧
      (∀ p ∈ (b.forIndicesPacket cb fuel pk).items, p ∈ T.ids b.indices) ∧
      ∀ i, IsNearestFrom (hits i) (T.ids b.indices) (tm.get i) (pk.t.get i) (t.get i) := by
  have hn : pk.hasNaN = false := rfl
  have hrun := C23_packet_traversal_refines b T h hdep pk hn cb fuel hf
  obtain ⟨hfin, _, hcount, _⟩ := C23_packet_offered b T h hdep pk hn cb (packetClosest_lowered hcb) fuel hf
  have hray : (b.forIndicesPacket cb fuel pk).ray =
      (b.forIndicesPacket cb fuel pk).items.foldl (fun r x => (cb r x).1) pk := by
    rw [hrun]; exact visit_ray T pk
  obtain ⟨t, e, hnear⟩ := fold_packet hcb (b.forIndicesPacket cb fuel pk).items pk.t
  have hfr := hray.trans e
  have hsub : ∀ p ∈ (b.forIndicesPacket cb fuel pk).items, p ∈ T.ids b.indices := fun p hp =>
    List.count_pos_iff.1 (Nat.lt_of_lt_of_le (List.count_pos_iff.2 hp) (hcount p))
  refine ⟨t, hfr, e, hsub, fun i => (hnear i).widen hsub (fun p hp s hs h1 h2 h3 => ?_)⟩
  have hge := visit_count_ge_final (closer := closerPacket) (idx := b.indices) RayPacket4.Lowered.refl
    RayPacket4.Lowered.trans (fun r x => (packetClosest_lowered hcb r x).1) (pass := fun a => a.mask4 { pk with t := t } i)
    (fin := { pk with t := t }) (hit := Aabb.intersect4)
    (by
      intro a r hr hpass
      obtain ⟨⟨t', e'⟩, hle⟩ := hr
      have hm : a.mask4 r i = true := by
        have e1 : r = { pk with t := r.t } := by
          have : { pk with t := t } = { r with t := t' } := e'
          cases r; simp only [RayPacket4.mk.injEq] at this ⊢
          obtain ⟨k1, k2, k3, k4, k5, k6, k7, k8, k9, _⟩ := this
          simp [*]
        rw [e1] at hle ⊢
        unfold Aabb.mask4 at hpass ⊢
        simp only [Bool.and_eq_true] at hpass ⊢
        refine ⟨hpass.1, ?_⟩
        rcases hle i with e | e
        · rw [← e]; exact hpass.2
        · exact rat_lt.2 (lt_of_lt_of_le (rat_lt.1 hpass.2) (rat_le.1 e))
      unfold Aabb.intersect4
      rw [if_pos ((Vec4.any_iff _).2 ⟨i, by rw [Vec4.get_ofFn]; exact hm⟩)]
      rfl) p T pk (by rw [← hrun]; exact hfin) (by rw [← hrun, hfr]; exact RayPacket4.Lowered.refl _)
  rw [← hrun] at hge
  refine List.count_pos_iff.1 (Nat.lt_of_lt_of_le (List.count_pos_iff.2 ?_) hge)
  exact (hhits i p hp s hs).mem fun a ha =>
    (mask4_of_onward (p := { pk with t := t }) hw (hd i) ((h0 i).trans h1) h3 ha).1

/-- C70 on an `Mbvh` with paths. -/
theorem C70_mbvh_covered (q : Mbvh Rat) (Q : QTree Rat) (h : q.Denotes Q) (hdep : Q.stackNeed ≤ 32) (pk : RayPacket4 Rat)
    (hw : pk.WellFormed)
    (hd : ∀ i, pk.directionX.get i ≠ 0 ∧ pk.directionY.get i ≠ 0 ∧ pk.directionZ.get i ≠ 0) (tm : Vec4 Rat)
    (h0 : ∀ i, 0 ≤ tm.get i) (hits : Fin 4 → Nat → Rat → Prop)
    (hhits : ∀ i, ∀ p ∈ Q.ids q.primIndices, ∀ s, hits i p s → Q.Reaches q.primIndices p (Aabb.Onward pk i s))
    (cb : RayPacket4 Rat → Nat → RayPacket4 Rat × Bool) (hcb : PacketClosest pk tm hits cb) (fuel : Nat)
    (hf : Q.rounds ≤ fuel) :
    ∃ t, (q.forIndicesPacket cb fuel pk).ray = { pk with t := t } ∧
      (q.forIndicesPacket cb fuel pk).items.foldl (fun r x => (cb r x).1) pk = { pk with t := t } ∧
      (∀ p ∈ (q.forIndicesPacket cb fuel pk).items, p ∈ Q.ids q.primIndices) ∧
      ∀ i, IsNearestFrom (hits i) (Q.ids q.primIndices) (tm.get i) (pk.t.get i) (t.get i) := by
  have hrun := (C28_traversal_refines q Q h hdep fuel hf).2 cb pk
  obtain ⟨hfin, _, hcount, _⟩ := C28_packet_offered q Q h hdep pk cb (packetClosest_lowered hcb) fuel hf
  have hray : (q.forIndicesPacket cb fuel pk).ray =
      (q.forIndicesPacket cb fuel pk).items.foldl (fun r x => (cb r x).1) pk := by
    rw [hrun]; exact Q.visit_ray pk
  obtain ⟨t, e, hnear⟩ := fold_packet hcb (q.forIndicesPacket cb fuel pk).items pk.t
  have hfr := hray.trans e
  have hsub : ∀ p ∈ (q.forIndicesPacket cb fuel pk).items, p ∈ Q.ids q.primIndices := fun p hp =>
    List.count_pos_iff.1 (Nat.lt_of_lt_of_le (List.count_pos_iff.2 hp) (hcount p))
  refine ⟨t, hfr, e, hsub, fun i => (hnear i).widen hsub (fun p hp s hs h1 h2 h3 => ?_)⟩
  have hge := Q.visit_count_ge_final (idx := q.primIndices) RayPacket4.Lowered.refl RayPacket4.Lowered.trans
    (fun r x => (packetClosest_lowered hcb r x).1) (pass := fun a => quadTest4 a { pk with t := t } i)
    (fin := { pk with t := t }) (hit := quadHit4) quadHit4_perm
    (by
      intro bs r s hr hpass
      show (bs.map fun b => (Vec4.ofFn (quadTest4 b r)).any).get s = true
      rw [Vec4.get_map]
      exact (Vec4.any_iff _).2 ⟨i, by rw [Vec4.get_ofFn]; exact quadTest4_lowered hr hpass⟩) p pk
    (by rw [← hrun]; exact hfin) (by rw [← hrun, hfr]; exact RayPacket4.Lowered.refl _)
  rw [Q.root_reach h.unfolds.root_isQuad, ← hrun] at hge
  refine List.count_pos_iff.1 (Nat.lt_of_lt_of_le (List.count_pos_iff.2 ?_) hge)
  exact (hhits i p hp s hs).mem fun a ha =>
    (mask4_of_onward (p := { pk with t := t }) hw (hd i) ((h0 i).trans h1) h3 ha).2

/-- The boxes contain the triangles' vertices strictly (they were given a margin). -/
def BoxesFitStrictly (tris : List (Triangle Rat)) (boxes : Nat → Aabb Rat) : Prop :=
  ∀ p tr, tris[p]? = some tr →
    (boxes p).contains tr.v0 = true ∧ (boxes p).contains tr.v1 = true ∧ (boxes p).contains tr.v2 = true

theorem meshHit4_strict {tris : List (Triangle Rat)} {boxes : Nat → Aabb Rat} (h : BoxesFitStrictly tris boxes)
    {pk : RayPacket4 Rat} (i : Fin 4) (p : Nat) (s : Rat) (hh : MeshHit4 tris pk i p s) :
    (boxes p).contains (pk.pointAt i s) = true := by
  obtain ⟨tr, e, _, u, v, hu, hv, huv, hp⟩ := hh
  obtain ⟨h0, h1, h2⟩ := h p tr e
  rw [contains_rat] at h0 h1 h2 ⊢
  rw [hp]
  have key : ∀ {m M a b c : Rat}, m < a ∧ a < M → m < b ∧ b < M → m < c ∧ c < M →
      m < (1 - u - v) * a + u * b + v * c ∧ (1 - u - v) * a + u * b + v * c < M := by
    intro m M a b c ⟨a1, a2⟩ ⟨b1, b2⟩ ⟨c1, c2⟩
    have hw : 0 ≤ 1 - u - v := by linarith
    have low : ∀ {x y z : Rat}, 0 < x → 0 < y → 0 < z → 0 < (1 - u - v) * x + u * y + v * z := by
      intro x y z hx hy hz
      rcases lt_or_eq_of_le hw with h | h
      · have := mul_pos h hx; have := mul_nonneg hu hy.le; have := mul_nonneg hv hz.le; linarith
      · rcases lt_or_eq_of_le hu with h' | h'
        · have := mul_nonneg hw hx.le; have := mul_pos h' hy; have := mul_nonneg hv hz.le; linarith
        · have hv1 : v = 1 := by linarith
          rw [← h, ← h', hv1]; linarith
    constructor
    · have := low (sub_pos.2 a1) (sub_pos.2 b1) (sub_pos.2 c1); linarith
    · have := low (sub_pos.2 a2) (sub_pos.2 b2) (sub_pos.2 c2); linarith
  exact ⟨key h0.1 h1.1 h2.1, key h0.2.1 h1.2.1 h2.2.1, key h0.2.2 h1.2.2 h2.2.2⟩

/-- C92 for packets, the part that holds: without a harmful move, if the `split` cuts the triangles' boxes or no
triangle is listed twice, and if the boxes handed to the builder contain the triangles strictly, `intersect4` on every id that the packet traversal yields leaves in every lane of `packet.t` the nearest
hit of that lane over the whole mesh, and the visualizer draws it; through the `Bvh` and its `Mbvh`.
Missing: builds with a harmful move (`C92_missed_hit`), and tight boxes: unlike the other builders this one does not pad
the boxes of leaves, so packets miss flat triangles (`C92_packet_misses_flat`). -/
theorem C92_packet_partial {tris : List (Triangle Rat)} {b : Builder Rat}
    {split : Nat → Fin 3 → Rat → Aabb Rat × Aabb Rat}
    {sort : Fin 3 → List (Ref Rat) → Option (List (Ref Rat))} {order ks : List Nat} (h : b.LegalSpatial order sort)
    (hfit : BoxesFitStrictly tris (boxAt (b.boxes order))) {bvh : Bvh Rat}
    (e : b.constructSpatialSah split sort order ks = .ok (.ok (some bvh)))
    {T : BTree Rat} (hU : Unfolds bvh.nodes 0 T)
    (hq : b.QuietSpatial split sort order (T.withIds bvh.indices))
    (hk : ∀ p < b.primitives.length, b.KeptWhole split order (T.ids bvh.indices) p)
    (pk : RayPacket4 Rat) (hw : pk.WellFormed)
    (hd : ∀ i, pk.directionX.get i ≠ 0 ∧ pk.directionY.get i ≠ 0 ∧ pk.directionZ.get i ≠ 0) (tm : Vec4 Rat)
    (h0 : ∀ i, 0 ≤ tm.get i) :
    (T.depth ≤ 31 → ∀ fuel ≥ 3 * referenceLimit Rat b.primitives.length + 2,
      (∃ t, (bvh.forIndicesPacket (meshCb4 tris tm) fuel pk).ray = { pk with t := t } ∧
        ∀ i, IsNearestFrom (MeshHit4 tris pk i) (List.range b.primitives.length) (tm.get i) (pk.t.get i) (t.get i)) ∧
      ∀ i, tm = Vec4.splat (lit 1 (-4)) →
        Shown (MeshHit4 tris pk i) (List.range b.primitives.length) (fun s => (lit 1 (-4) : Rat) ≤ s ∧ s < pk.t.get i)
          ((drawPacket tris (bvh.forIndicesPacket (meshCb4 tris tm) fuel) pk).get i)) ∧
    (T.depth ≤ 22 ∨ T.leaves ≤ 65 → ∀ depth > T.depth, ∃ q : Mbvh Rat, Mbvh.construct depth bvh = some q ∧
      ∃ N, ∀ fuel ≥ N,
      (∃ t, (q.forIndicesPacket (meshCb4 tris tm) fuel pk).ray = { pk with t := t } ∧
        ∀ i, IsNearestFrom (MeshHit4 tris pk i) (List.range b.primitives.length) (tm.get i) (pk.t.get i) (t.get i)) ∧
      ∀ i, tm = Vec4.splat (lit 1 (-4)) →
        Shown (MeshHit4 tris pk i) (List.range b.primitives.length) (fun s => (lit 1 (-4) : Rat) ≤ s ∧ s < pk.t.get i)
          ((drawPacket tris (q.forIndicesPacket (meshCb4 tris tm) fuel) pk).get i)) := by
  obtain ⟨T', hc, hr⟩ := C26_spatial_compact h e
  have := hU.det hc.unfolds; subst this
  obtain ⟨_, hU', _, _, _, _, _, hlt, _⟩ := spatial_built h e
  have := hU.det hU'; subst this
  have hids : ∀ p, p ∈ T.ids bvh.indices ↔ p ∈ List.range b.primitives.length := fun p =>
    ⟨fun hp => List.mem_range.2 (hlt p hp), fun hp => C42_no_harm_keeps_partial h hq p (List.mem_range.1 hp)⟩
  have hreach : ∀ i, ∀ p ∈ T.ids bvh.indices, ∀ s, MeshHit4 tris pk i p s →
      T.Reaches bvh.indices p (Aabb.Onward pk i s) := by
    intro i p hp s hh
    have hon := onward_of_contains (meshHit4_strict hfit i p s hh)
    exact spared_covers h (fun a _ => rat_numeric a) (fun i a x => ⟨rat_numeric _, rat_numeric _⟩) (onwardFilter pk i s)
      p (hlt p hp) (hq.spares p) hon
      ((hk p (hlt p hp)).imp (fun e => by rw [e]; exact clipBox_onward hon) id)
  have near : ∀ {i} {t : Vec4 Rat}, IsNearestFrom (MeshHit4 tris pk i) (T.ids bvh.indices) (tm.get i) (pk.t.get i) (t.get i) →
      IsNearestFrom (MeshHit4 tris pk i) (List.range b.primitives.length) (tm.get i) (pk.t.get i) (t.get i) := fun hn =>
    hn.widen (fun p hp => (hids p).1 hp) (fun p hp _ _ _ _ _ => (hids p).2 hp)
  refine ⟨fun hdep fuel hf => ?_, fun hdep k hk => ?_⟩
  · obtain ⟨t, e1, e2, e3, e4⟩ := C70_bvh_covered bvh T hc.toDenotes hdep pk hw hd tm h0 _ hreach _
      (meshCb4_closest tris tm pk) fuel (by omega)
    refine ⟨⟨t, e1, fun i => near (e4 i)⟩, ?_⟩
    rintro i rfl
    have := near (e4 i)
    rw [Vec4.get_splat] at this
    exact shown_packet e2 (fun p hp => (hids p).1 (e3 p hp)) i this
  · obtain ⟨q, e1, e2, _, h2, _⟩ := construct_main bvh T hc k hk
    have need : T.toQuad.stackNeed ≤ 32 := by
      rcases hdep with hdep | hdep
      · refine C29_quad_depth _ ?_
        by_cases h1 : 1 ≤ T.depth
        · have := toQuad_depth' T h1; omega
        · have := toQuad_depth T; omega
      · have := toQuad_need T; omega
    refine ⟨q, e1, T.toQuad.rounds, fun fuel hf => ?_⟩
    obtain ⟨t, k1, k2, k3, k4⟩ := C70_mbvh_covered q T.toQuad e2 need pk hw hd tm h0 (MeshHit4 tris pk) (by
      rw [toQuad_ids, h2]
      exact fun i p hp s hs => (hreach i p hp s hs).toQuad) _ (meshCb4_closest tris tm pk) fuel hf
    rw [toQuad_ids, h2] at k3 k4
    refine ⟨⟨t, k1, fun i => near (k4 i)⟩, ?_⟩
    rintro i rfl
    have := near (k4 i)
    rw [Vec4.get_splat] at this
    exact shown_packet k2 (fun p hp => (hids p).1 (k3 p hp)) i this

/-- Three triangles in the planes `z = 3`, `z = 6`, `z = 9`, side by side. -/
def flatTris : List (Triangle F32) :=
  [⟨pt 0 0 3, pt 2 0 3, pt 0 2 3⟩, ⟨pt 10 0 6, pt 12 0 6, pt 10 2 6⟩, ⟨pt 20 0 9, pt 22 0 9, pt 20 2 9⟩]

def flatRay : Ray F32 := Ray.new ⟨lit 5 (-1), lit 5 (-1), zero⟩ ⟨lit 1 (-5), lit 1 (-5), one⟩
def flatPacket : RayPacket4 F32 :=
  RayPacket4.new (fun _ => ⟨lit 5 (-1), lit 5 (-1), zero, one⟩) (fun _ => ⟨lit 1 (-5), lit 1 (-5), one, zero⟩)

/-- C92 for packets is false for tight boxes, even without a harmful move: three axis-parallel triangles with small integer
coordinates, built with the provided `split`; the ray finds the first triangle at distance 3, the packet of four copies of
the ray finds nothing. -/
theorem C92_packet_misses_flat : ∃ (bvh : Bvh F32) (T : BTree F32),
    (triScene flatTris).LegalSpatial [0, 1, 2] refSort ∧
    (triScene flatTris).constructSpatialSah (triSplit flatTris) refSort [0, 1, 2] (List.replicate 10 0) =
      .ok (.ok (some bvh)) ∧ Unfolds bvh.nodes 0 T ∧
    (triScene flatTris).QuietSpatial (triSplit flatTris) refSort [0, 1, 2] (T.withIds bvh.indices) ∧
    (∀ i, flatPacket.ray i = flatRay) ∧
    (bvh.forIndices (meshCb flatTris) 100 flatRay).ray.t = lit 3 0 ∧
    (bvh.forIndicesPacket (meshCb4 flatTris (Vec4.splat zero)) 100 flatPacket).ending = .finished ∧
    (bvh.forIndicesPacket (meshCb4 flatTris (Vec4.splat zero)) 100 flatPacket).items = [] := by
  have key : (spatialBuilt ((triScene flatTris).constructSpatialSah (triSplit flatTris) refSort [0, 1, 2]
      (List.replicate 10 0))).map (fun x => decide ((x.1.forIndices (meshCb flatTris) 100 flatRay).ray.t = lit 3 0 ∧
        (x.1.forIndicesPacket (meshCb4 flatTris (Vec4.splat zero)) 100 flatPacket).ending = .finished ∧
        (x.1.forIndicesPacket (meshCb4 flatTris (Vec4.splat zero)) 100 flatPacket).items = [])) = some true := by
    decide +kernel
  rw [Option.map_eq_some_iff] at key
  obtain ⟨⟨bvh, T⟩, h1, h2⟩ := key
  obtain ⟨e, hU⟩ := spatialBuilt_some h1
  have hl := triScene_legal flatTris [0, 1, 2] (by decide) (by decide) (by decide) (by decide +kernel)
  exact ⟨bvh, T, hl, e, hU, quiet_spatial hl e hU (by decide +kernel), by decide +kernel, of_decide_eq_true h2⟩

/-- `rowTris` with boxes one larger on all sides. -/
def marginScene : Builder Rat :=
  { meshScene rowTris (some 1) with
    aabbs := some (rowTris.map fun tr => ⟨(triPrim tr).aabb.min.sub (Vec3.splat 1), 0, (triPrim tr).aabb.max.add (Vec3.splat 1), 0⟩) }

/-- Four rays that meet all three triangles from the far side. -/
def rowPacket : RayPacket4 Rat :=
  RayPacket4.new (fun _ => ⟨30, 1 / 4, 1 / 4, 1⟩) (fun i => ⟨-1, 1 / 1000, 1 / (1000 + (i.val : Rat)), 0⟩)

/-- Not vacuous: a build without harmful moves and with a margin, a shadow ray that is blocked, and a packet that finds
the nearest hits. -/
example : ∃ (bvh : Bvh Rat) (T : BTree Rat), Unfolds bvh.nodes 0 T ∧ 1 < T.leaves ∧ T.depth ≤ 31 ∧
    marginScene.QuietSpatial (fun i => clipBox (boxAt (marginScene.boxes [0, 1, 2]) i)) refSort [0, 1, 2]
      (T.withIds bvh.indices) ∧
    BoxesFitStrictly rowTris (boxAt (marginScene.boxes [0, 1, 2])) ∧
    (bvh.forIndices (shadowCb rowTris) 100 rowRay).ending = .stopped ∧
    (∃ t, (bvh.forIndicesPacket (meshCb4 rowTris (Vec4.splat 0)) 100 rowPacket).ray = { rowPacket with t := t } ∧
      (∀ i, t.get i < rowPacket.t.get i) ∧
      ∀ i, IsNearestFrom (MeshHit4 rowTris rowPacket i) (List.range 3) 0 (rowPacket.t.get i) (t.get i)) := by
  have hl : marginScene.LegalSpatial [0, 1, 2] refSort :=
    { nonempty := by decide, boxes := by decide, order := by decide, small := by decide
      fits := by decide +kernel
      sorts := refSort_sorts }
  have key : (spatialBuilt (marginScene.constructSpatialSah
      (fun i => clipBox (boxAt (marginScene.boxes [0, 1, 2]) i)) refSort [0, 1, 2]
      (List.replicate 10 0))).map (fun x => decide (1 < x.2.leaves ∧ x.2.depth ≤ 31 ∧
        (x.1.forIndices (shadowCb rowTris) 100 rowRay).ending = .stopped ∧
        ∀ i, (x.1.forIndicesPacket (meshCb4 rowTris (Vec4.splat 0)) 100 rowPacket).ray.t.get i < rowPacket.t.get i)) =
      some true := by decide +kernel
  rw [Option.map_eq_some_iff] at key
  obtain ⟨⟨bvh, T⟩, h1, h2⟩ := key
  obtain ⟨e, hU⟩ := spatialBuilt_some h1
  obtain ⟨h2, h3, h4, h5⟩ := of_decide_eq_true h2
  have hq := quiet_spatial hl e hU (by decide +kernel)
  have hfit : BoxesFitStrictly rowTris (boxAt (marginScene.boxes [0, 1, 2])) := by
    intro p tr hp
    have hlt : p < 3 := by
      obtain ⟨hlt, _⟩ := List.getElem?_eq_some_iff.1 hp; exact hlt
    have key : ∀ p < 3, ∀ tr, rowTris[p]? = some tr → (boxAt (marginScene.boxes [0, 1, 2]) p).contains tr.v0 = true ∧
        (boxAt (marginScene.boxes [0, 1, 2]) p).contains tr.v1 = true ∧
        (boxAt (marginScene.boxes [0, 1, 2]) p).contains tr.v2 = true := by
      intro p hp tr htr
      match p, hp with
      | 0, _ => cases htr; decide +kernel
      | 1, _ => cases htr; decide +kernel
      | 2, _ => cases htr; decide +kernel
    exact key p hlt tr hp
  obtain ⟨⟨t, k1, k2⟩, _⟩ := (C92_packet_partial hl hfit e hU hq (fun _ _ => .inl rfl) rowPacket (by unfold RayPacket4.WellFormed; decide +kernel)
    (by decide +kernel) (Vec4.splat 0) (by decide +kernel)).1 h3 100 (by decide +kernel)
  refine ⟨bvh, T, hU, h2, h3, hq, hfit, h4, t, k1, fun i => ?_, fun i => ?_⟩
  · have := h5 i; rw [k1] at this; exact this
  · have := k2 i; rw [Vec4.get_splat] at this; exact this

end Rtbvh
