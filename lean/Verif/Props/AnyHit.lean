import Verif.Proofs.AnyHit
import Verif.Props.Queries
/- Property C69: occlusion queries (stop at the first hit). -/
namespace Rtbvh
open FloatOps Aabb

section lawful
variable {F : Type} [FloatOps F] [LawfulFloat F]

/-- C69 on a `Bvh`: a loop that breaks at the first primitive its test accepts gives the answer of testing all stored
primitives: it breaks exactly if some stored primitive is accepted, at the first accepted one it is handed, and leaves
the ray alone otherwise.  For every tree at most 31 deep whose boxes contain their primitives' boxes, and every test that
accepts only primitives whose box the ray hits. -/
theorem C69_bvh_any_hit (b : Bvh F) (T : BTree F) (h : b.Denotes T) (hd : T.depth ≤ 31) (boxes : Nat → Aabb F)
    (hb : T.Bounds b.indices boxes) (ray : Ray F) (hn : ray.hasNaN = false) (hr : ray.Coherent)
    (hN : T.NoNaN b.indices ray.origin ray.invDirection) (cb : Ray F → Nat → Ray F × Bool) (hany : AnyHit cb)
    (hcb : ∀ r id, ∃ t, (cb r id).1 = { r with t := t })
    (hbox : ∀ p ∈ T.ids b.indices, (cb ray p).2 = true →
      (boxes p).NoNaN ray.origin ray.invDirection ∧ ((boxes p).intersect ray).isSome = true)
    (fuel : Nat) (hf : T.rounds < fuel) :
    Occlusion cb (T.ids b.indices) ray (b.forIndices cb fuel ray) := by
  have href := fun cb => C20_ray_traversal_refines b T h hd ray hn cb fuel hf
  refine occlusion_of ?_ ?_ ?_ ?_
  · rw [href]; exact T.visit_induct (anyRun_items hany) anyRun_seq ray
  · rw [href]; exact visit_ending T ray
  · intro x hx
    rw [href] at hx
    have h1 := visit_count_le (Inv := fun _ => True) (closer := closerRay) (hit := Aabb.intersect) (idx := b.indices)
      (cb := cb) (fun _ _ _ => trivial) (pass := fun _ => true) (fun _ _ _ _ => rfl) x T ray trivial
    exact List.count_pos_iff.1 (Nat.lt_of_lt_of_le (List.count_pos_iff.2 hx)
      (Nat.le_trans h1 (reach_count_le_ids _ _ _ T)))
  · intro hfin p hp hc
    obtain ⟨h1, h2⟩ := hbox p hp hc
    have := C21_ray_complete b T h hd boxes hb ray hn hr hN (unbreak cb)
      (fun r id => by obtain ⟨t, e⟩ := hcb r id; exact ⟨t, by rw [unbreak, e]⟩) fuel hf p hp h1 h2
    rw [href] at hfin this ⊢
    rw [T.visit_unbreak ray hfin] at this
    exact this

/-- C69 on an `Mbvh`. -/
theorem C69_mbvh_any_hit (q : Mbvh F) (Q : QTree F) (h : q.Denotes Q) (hd : Q.stackNeed ≤ 32) (boxes : Nat → Aabb F)
    (hb : Q.Bounds q.primIndices boxes) (ray : Ray F) (hN : Q.NoNaN q.primIndices ray.origin ray.invDirection)
    (cb : Ray F → Nat → Ray F × Bool) (hany : AnyHit cb) (hcb : ∀ (r : Ray F) id, r.Lowered (cb r id).1)
    (hbox : ∀ p ∈ Q.ids q.primIndices, (cb ray p).2 = true →
      (boxes p).Valid ∧ (boxes p).NoNaN ray.origin ray.invDirection ∧ quadTest (boxes p) ray = true)
    (fuel : Nat) (hf : Q.rounds ≤ fuel) :
    Occlusion cb (Q.ids q.primIndices) ray (q.forIndices cb fuel ray) := by
  have href := (C28_traversal_refines q Q h hd fuel hf).1
  have hA : AnyRun cb ray (q.forIndices cb fuel ray) := by
    rw [href]; exact Q.visit_induct (anyRun_items hany) anyRun_seq ray
  refine occlusion_of hA ?_ ?_ ?_
  · rw [href]; exact Q.visit_ending ray
  · intro x hx
    rw [href] at hx
    have h1 := Q.visit_count_le (Inv := fun _ => True) (cb := cb) (idx := q.primIndices) (fun _ _ _ => trivial)
      (pass := fun _ => true) quadHit_perm (fun _ _ _ _ _ => rfl) x ray trivial
    rw [Q.root_reach h.unfolds.root_isQuad] at h1
    exact List.count_pos_iff.1 (Nat.lt_of_lt_of_le (List.count_pos_iff.2 hx)
      (Nat.le_trans h1 (Q.reach_count_le_ids _ _ _)))
  · intro hfin p hp hc
    obtain ⟨h1, h2, h3⟩ := hbox p hp hc
    obtain ⟨_, _, _, hcomp⟩ := C28_ray_complete q Q h hd boxes hb ray (unbreak cb)
      (fun r id => ⟨hcb r id, rfl⟩) fuel hf
    have hr := (hA.1 hfin).1
    have e : q.forIndices (unbreak cb) fuel ray = q.forIndices cb fuel ray := by
      rw [href] at hfin ⊢
      rw [href]
      exact Q.visit_unbreak ray hfin
    rw [e] at hcomp
    exact hcomp hN p hp h1 h2 (by rw [hr]; exact h3)

end lawful

/-! Shadow rays through a triangle mesh. -/

/-- The loop body of a shadow ray: `if triangles[id].intersect(ray) { return true }`. -/
def shadowCb {F : Type} [FloatOps F] (tris : List (Triangle F)) (r : Ray F) (p : Nat) : Ray F × Bool :=
  match tris[p]? with
  | some tr => tr.intersect r
  | none => (r, false)

theorem shadow_anyHit (tris : List (Triangle Rat)) : AnyHit (shadowCb tris) := by
  intro r p h
  unfold shadowCb at h ⊢
  cases e : tris[p]? with
  | none => rfl
  | some tr => rw [e] at h; exact (C38_intersect_protocol tr r).2 h

theorem shadow_lowered (tris : List (Triangle Rat)) (r : Ray Rat) (p : Nat) : r.Lowered (shadowCb tris r p).1 := by
  unfold shadowCb
  split
  · rename_i tr e
    obtain ⟨h1, h2⟩ := C38_intersect_protocol tr r
    cases hb : (tr.intersect r).2 with
    | true => obtain ⟨a, _, c⟩ := h1 hb; exact ⟨⟨_, a⟩, .inr (rat_le.2 (rat_lt.1 c).le)⟩
    | false => rw [h2 hb]; exact Ray.Lowered.refl r
  · exact Ray.Lowered.refl r

theorem shadow_iff (tris : List (Triangle Rat)) (ray : Ray Rat) (p : Nat) :
    (shadowCb tris ray p).2 = true ↔ ∃ s, ray.tMin < s ∧ s < ray.t ∧ MeshHit tris ray p s := by
  unfold shadowCb MeshHit
  cases e : tris[p]? with
  | none => simp
  | some tr =>
    rw [(C39_intersect_exact tr ray).1]
    constructor
    · rintro ⟨h1, s, h2, h3, h4⟩; exact ⟨s, h2, h3, tr, rfl, h1, h4⟩
    · rintro ⟨s, h2, h3, tr', e', h1, h4⟩; cases e'; exact ⟨h1, s, h2, h3, h4⟩

/-- The answer of a shadow ray. -/
def Blocked (tris : List (Triangle Rat)) (n : Nat) (ray : Ray Rat) : Prop :=
  ∃ p < n, ∃ s, ray.tMin < s ∧ s < ray.t ∧ MeshHit tris ray p s

/-- A shadow ray through a built hierarchy whose boxes contain their primitives' boxes. -/
theorem shadow_main {b : Builder Rat} {order : List Nat} {bvh : Bvh Rat} {T : BTree Rat} (hc : bvh.Compact T)
    (hp : (T.ids bvh.indices).Perm (List.range b.primitives.length)) (hr : T.rounds < 3 * b.primitives.length)
    (hb : T.Bounds bvh.indices (boxAt (b.boxes order))) (ray : Ray Rat) (hw : ray.WellFormed)
    (hd : ray.direction.NonZero) (tris : List (Triangle Rat)) (hfit : BoxesFit tris (boxAt (b.boxes order))) :
    (T.depth ≤ 31 → ∀ fuel ≥ 3 * b.primitives.length,
      ((bvh.forIndices (shadowCb tris) fuel ray).ending = .stopped ↔ Blocked tris b.primitives.length ray) ∧
      ((bvh.forIndices (shadowCb tris) fuel ray).ending = .finished ↔ ¬ Blocked tris b.primitives.length ray)) ∧
    (T.depth ≤ 22 ∨ T.leaves ≤ 65 → ∀ depth > T.depth, ∃ q : Mbvh Rat, Mbvh.construct depth bvh = some q ∧
      ∃ N, ∀ fuel ≥ N,
        ((q.forIndices (shadowCb tris) fuel ray).ending = .stopped ↔ Blocked tris b.primitives.length ray) ∧
        ((q.forIndices (shadowCb tris) fuel ray).ending = .finished ↔ ¬ Blocked tris b.primitives.length ray)) := by
  have key : ∀ (ids : List Nat) (run : Run (Ray Rat) Nat), ids.Perm (List.range b.primitives.length) →
      Occlusion (shadowCb tris) ids ray run →
      ((run.ending = .stopped ↔ Blocked tris b.primitives.length ray) ∧
       (run.ending = .finished ↔ ¬ Blocked tris b.primitives.length ray)) := by
    intro ids run hperm ho
    have hB : Blocked tris b.primitives.length ray ↔ ∃ p ∈ ids, (shadowCb tris ray p).2 = true := by
      constructor
      · rintro ⟨p, h1, h2⟩
        exact ⟨p, hperm.mem_iff.2 (List.mem_range.2 h1), (shadow_iff tris ray p).2 h2⟩
      · rintro ⟨p, h1, h2⟩
        exact ⟨p, List.mem_range.1 (hperm.mem_iff.1 h1), (shadow_iff tris ray p).1 h2⟩
    refine ⟨ho.1.trans hB.symm, ho.2.1.trans ?_⟩
    rw [hB]
    constructor
    · rintro h ⟨p, h1, h2⟩; rw [h p h1] at h2; cases h2
    · intro h p h1
      cases hc : (shadowCb tris ray p).2 with
      | false => rfl
      | true => exact absurd ⟨p, h1, hc⟩ h
  refine ⟨fun hdep fuel hf => ?_, fun hdep k hk => ?_⟩
  · refine key _ _ hp (C69_bvh_any_hit bvh T hc.toDenotes hdep _ hb ray rfl (hw.coherent hd) (treeNoNaN_rat _ _ _ _) _
      (shadow_anyHit tris) (fun r id => (shadow_lowered tris r id).1) ?_ fuel (by omega))
    intro p _ hhit
    obtain ⟨s, h1, h2, h3⟩ := (shadow_iff tris ray p).1 hhit
    have hbox := meshHit_box hfit p s h3
    exact ⟨noNaN_rat _ _ _, ((C35_slab_exact (valid_of_has hbox) hw hd).2.1).2 ⟨s, h1, hbox⟩⟩
  · obtain ⟨q, e1, e2, _, h2, _⟩ := construct_main bvh T hc k hk
    have need : T.toQuad.stackNeed ≤ 32 := by
      rcases hdep with hdep | hdep
      · refine C29_quad_depth _ ?_
        by_cases h1 : 1 ≤ T.depth
        · have := toQuad_depth' T h1; omega
        · have := toQuad_depth T; omega
      · have := toQuad_need T; omega
    refine ⟨q, e1, T.toQuad.rounds, fun fuel hf => ?_⟩
    refine key _ _ (by rw [toQuad_ids, h2]; exact hp) (C69_mbvh_any_hit q T.toQuad e2 need _
      (by rw [h2]; exact toQuad_forall (C := fun a p => (boxAt (b.boxes order) p).Within a) hb) ray
      (quadNoNaN_rat _ _ _ _) _ (shadow_anyHit tris) (shadow_lowered tris) ?_ fuel hf)
    intro p _ hhit
    obtain ⟨s, h1, h2, h3⟩ := (shadow_iff tris ray p).1 hhit
    have hbox := meshHit_box hfit p s h3
    exact ⟨valid_of_has hbox, noNaN_rat _ _ _, quadTest_of_has hw hd hbox h2⟩

/-- C69 end to end, clustering builder, exact arithmetic: the shadow loop over a mesh breaks exactly if some triangle of
the mesh blocks the segment; through the `Bvh` and through the `Mbvh` made from it. -/
theorem C69_shadow_locb (tris : List (Triangle Rat)) (b : Builder Rat) (order : List Nat) (h : b.Legal order)
    (t rounds : Nat) (ht : 0 < t) (hs : b.primitives.length ≤ 2 ^ 29) (hfit : BoxesFit tris (boxAt (b.boxes order)))
    (bvh : Bvh Rat) (e : b.constructLocb order t rounds = .ok (some (some bvh))) (T : BTree Rat)
    (hU : Unfolds bvh.nodes 0 T) (ray : Ray Rat) (hw : ray.WellFormed) (hd : ray.direction.NonZero) :
    (T.depth ≤ 31 → ∀ fuel ≥ 3 * b.primitives.length,
      ((bvh.forIndices (shadowCb tris) fuel ray).ending = .stopped ↔ Blocked tris b.primitives.length ray) ∧
      ((bvh.forIndices (shadowCb tris) fuel ray).ending = .finished ↔ ¬ Blocked tris b.primitives.length ray)) ∧
    (T.depth ≤ 22 ∨ T.leaves ≤ 65 → ∀ depth > T.depth, ∃ q : Mbvh Rat, Mbvh.construct depth bvh = some q ∧
      ∃ N, ∀ fuel ≥ N,
        ((q.forIndices (shadowCb tris) fuel ray).ending = .stopped ↔ Blocked tris b.primitives.length ray) ∧
        ((q.forIndices (shadowCb tris) fuel ray).ending = .finished ↔ ¬ Blocked tris b.primitives.length ray)) := by
  obtain ⟨T', hc, hp, _, hr, _⟩ := returns_tree h hs (.inr ⟨t, rounds, ht, e⟩)
  have := hU.det hc.unfolds; subst this
  exact shadow_main hc hp hr (C12_locb_bounds b order h t rounds ht hs bvh T e hU fun a _ => rat_numeric a).1 ray hw hd
    tris hfit

/-- C69 end to end, binned builds that misplace nothing (`Spec/Sah.lean`).  Missing: builds that do
(`C07_left_child_misses`, `C07_misplaced_there`). -/
theorem C69_shadow_binned_partial (tris : List (Triangle Rat)) (b : Builder Rat) (order ks : List Nat) (h : b.Legal order)
    (hs : b.primitives.length ≤ 2 ^ 29) (hfit : BoxesFit tris (boxAt (b.boxes order)))
    (bvh : Bvh Rat) (e : b.constructBinnedSah order ks = .ok (some (some bvh))) (T : BTree Rat)
    (hU : Unfolds bvh.nodes 0 T)
    (hm : ∀ p < b.primitives.length, ¬ T.Misplaces (b.ctx order) bvh.indices p)
    (ray : Ray Rat) (hw : ray.WellFormed) (hd : ray.direction.NonZero) :
    (T.depth ≤ 31 → ∀ fuel ≥ 3 * b.primitives.length,
      ((bvh.forIndices (shadowCb tris) fuel ray).ending = .stopped ↔ Blocked tris b.primitives.length ray) ∧
      ((bvh.forIndices (shadowCb tris) fuel ray).ending = .finished ↔ ¬ Blocked tris b.primitives.length ray)) ∧
    (T.depth ≤ 22 ∨ T.leaves ≤ 65 → ∀ depth > T.depth, ∃ q : Mbvh Rat, Mbvh.construct depth bvh = some q ∧
      ∃ N, ∀ fuel ≥ N,
        ((q.forIndices (shadowCb tris) fuel ray).ending = .stopped ↔ Blocked tris b.primitives.length ray) ∧
        ((q.forIndices (shadowCb tris) fuel ray).ending = .finished ↔ ¬ Blocked tris b.primitives.length ray)) := by
  obtain ⟨T', hc, hp, _, hr, _⟩ := returns_tree h hs (.inl ⟨ks, e⟩)
  have := hU.det hc.unfolds; subst this
  exact shadow_main hc hp hr (C07_no_misplaced_partial b order ks h bvh T e hU (fun a _ => rat_numeric a) hm).2 ray hw
    hd tris hfit

/-- Non-vacuity of C69: three triangles; a ray through all of them is blocked after the first primitive handed out, with
`t` cut just before the nearest triangle it is not. -/
example : (builtTree ((meshScene threeTris (some 3)).constructLocb (List.range 3) 2 5)).map (fun x =>
      ((x.1.forIndices (shadowCb threeTris) 9 exRay).items, (x.1.forIndices (shadowCb threeTris) 9 exRay).ending,
       (x.1.forIndices (shadowCb threeTris) 9 { exRay with t := 3 }).items,
       (x.1.forIndices (shadowCb threeTris) 9 { exRay with t := 3 }).ending)) =
      some ([2], .stopped, [2, 0, 1], .finished) ∧
    (builtTree ((meshScene threeTris (some 3)).constructBinnedSah (List.range 3) (List.replicate 10 0))).map (fun x =>
      (x.1.forIndices (shadowCb threeTris) 9 exRay).ending) = some .stopped ∧
    ({ exRay with t := 3 } : Ray Rat).WellFormed := by
  refine ⟨?_, ?_, ?_⟩ <;> decide +kernel

end Rtbvh
