import Verif.Props.Trace
import Verif.Props.Watertight
/- C93 in binary32 with its condition stated geometrically: whatever the triangle test accepts, the ray really meets. -/
namespace Rtbvh
open FloatOps LawfulFloat Aabb

/-- Every triangle that `Triangle::intersect` accepts on this ray (in `f32`, whatever the current `t`) is met by the ray in
exact arithmetic too, at some parameter from `t_min` on. -/
def NoFalseHits (tris : List (Triangle F32)) (ray : Ray F32) : Prop :=
  ∀ (p : Nat) (tr : Triangle F32) (T : F32), tris[p]? = some tr → (tr.intersect { ray with t := T }).2 = true →
    ∃ s : ℚ, ray.tMin.val ≤ s ∧ tr.exact.Has (pointOn ray.origin ray.direction s)

/-- The boxes contain the vertices of the triangles. -/
def BoxesHold (tris : List (Triangle F32)) (boxes : Nat → Aabb F32) : Prop :=
  ∀ (p : Nat) (tr : Triangle F32), tris[p]? = some tr → (boxes p).Has tr.v0 ∧ (boxes p).Has tr.v1 ∧ (boxes p).Has tr.v2

theorem Builder.Padded.trace {b : Builder F32} {order : List Nat} {bvh : Bvh F32} {T : BTree F32} {K : Nat → Prop}
    (S : b.Padded order bvh T K) (hK : ∀ p < b.primitives.length, K p) (hdep : T.depth ≤ 31) (tris : List (Triangle F32))
    (hl : tris.length = b.primitives.length) (hfit : BoxesHold tris (boxAt (b.boxes order)))
    (hm : ∀ p < b.primitives.length, (boxAt (b.boxes order) p).Moderate) (ray : Ray F32) (hw : ray.WellFormed)
    (ho : ray.origin.Moderate) (hd : ray.direction.Ordinary) (hz : ray.direction.NoNegZero) (hti : ray.tMin.IsFin)
    (hex : NoFalseHits tris ray) (fuel : Nat) (hf : 3 * b.primitives.length ≤ fuel) :
    let run := bvh.forIndices (meshCb tris) fuel ray
    run.ending = .finished ∧ run.ray = { ray with t := run.ray.t } ∧ Same run.ray.t (testAll tris ray).t := by
  intro run
  have hro := S.rounds
  have hnan : ray.hasNaN = false := by
    simp [Ray.hasNaN, Vec3.isNaN, ho.1.num, ho.2.1.num, ho.2.2.num, hd.1.num, hd.2.1.num, hd.2.2.num]
  have hcb : ∀ (r : Ray F32) (id : Nat), ∃ t, meshCb tris r id = ({ r with t := t }, false) :=
    fun r id => ⟨_, meshCb_step tris r r.t id⟩
  have hrun := C20_ray_traversal_refines bvh T S.compact.toDenotes hdep ray hnan (meshCb tris) fuel (by omega)
  obtain ⟨h1, _, hperm⟩ := C20_ray_traversal_exact bvh T S.compact.toDenotes hdep ray hnan _ hcb fuel (by omega)
  have hray : run.ray = run.items.foldl (fun r x => (meshCb tris r x).1) ray := by
    show (bvh.forIndices (meshCb tris) fuel ray).ray = (bvh.forIndices (meshCb tris) fuel ray).items.foldl _ ray
    rw [hrun]
    exact visit_ray T ray
  have hsub : ∀ p ∈ run.items, p < tris.length := by
    intro p hp
    rw [hperm.mem_iff] at hp
    have := List.count_pos_iff.1 (Nat.lt_of_lt_of_le (List.count_pos_iff.2 hp) (reach_count_le_ids _ _ _ _))
    rw [hl]; exact List.mem_range.1 (S.ids.mem_iff.1 this)
  have ho' : run.ray = { ray with t := run.ray.t } := ray_same_ray tris ray run.items run.ray hray
  obtain ⟨_, _, k⟩ := ray_same tris ray run.items run.ray hray hsub (fun p hp tr e hacc => by
    rw [ho'] at hacc
    obtain ⟨s, hs, hhit⟩ := hex p tr _ e hacc
    obtain ⟨f0, f1, f2⟩ := hfit p tr e
    have hp' := hl ▸ hp
    exact S.watertight.1 hdep ray _ hw hcb fuel hf ho hd hz hti p hp' (hK p hp') (hm p hp') s hs
      (C95_triangle _ (hm p hp') tr f0 f1 f2 _ hhit))
  exact ⟨h1, ho', k⟩

/-- C93 in binary32, clustering builder, rays through the `Bvh`, the condition stated geometrically: coordinates of boxes
and origin at most 200 in size, direction components zero (not -0.0) or between `2^-100` and `2^100`, boxes that contain the
triangles.  If every triangle the rounded triangle test accepts is really met by the ray, then tracing through the hierarchy
leaves the `t` that testing every triangle leaves.  Rays parallel to the axes are included, and any number of triangles.
Missing: rays with false hits (`C93_sliver_missed`) and larger coordinates (`C93_real_hit_missed`). -/
theorem C93_true_hits_partial (b : Builder F32) (order : List Nat) (h : b.Legal order) (t rounds : Nat) (ht : 0 < t)
    (hs : b.primitives.length ≤ 2 ^ 29) (bvh : Bvh F32)
    (e : b.constructLocb order t rounds = .ok (some (some bvh))) (T : BTree F32) (hU : Unfolds bvh.nodes 0 T)
    (hdep : T.depth ≤ 31) (tris : List (Triangle F32)) (hl : tris.length = b.primitives.length)
    (hfit : BoxesHold tris (boxAt (b.boxes order))) (hm : ∀ a ∈ b.boxes order, a.Moderate)
    (ray : Ray F32) (hw : ray.WellFormed) (ho : ray.origin.Moderate) (hd : ray.direction.Ordinary)
    (hz : ray.direction.NoNegZero) (hti : ray.tMin.IsFin) (hex : NoFalseHits tris ray)
    (fuel : Nat) (hf : 3 * b.primitives.length ≤ fuel) :
    let run := bvh.forIndices (meshCb tris) fuel ray
    run.ending = .finished ∧ run.ray = { ray with t := run.ray.t } ∧ Same run.ray.t (testAll tris ray).t := by
  have hn : ∀ a ∈ b.boxes order, a.Numeric := fun a ha =>
    ⟨⟨(hm a ha).1.1.num, (hm a ha).1.2.1.num, (hm a ha).1.2.2.num⟩, (hm a ha).2.1.num, (hm a ha).2.2.1.num,
      (hm a ha).2.2.2.num⟩
  exact (locb_padded b order h t rounds ht hs hn bvh e T hU).trace (fun _ _ => trivial) hdep tris hl hfit
    (fun p hp => hm _ (boxAt_mem (by rw [Builder.boxes_length h]; exact hp))) ray hw ho hd hz hti hex fuel hf

/-- The same for the binned builder, for builds that misplace nothing. -/
theorem C93_true_hits_binned_partial (b : Builder F32) (order ks : List Nat) (h : b.Legal order)
    (hs : b.primitives.length ≤ 2 ^ 29) (bvh : Bvh F32)
    (e : b.constructBinnedSah order ks = .ok (some (some bvh))) (T : BTree F32) (hU : Unfolds bvh.nodes 0 T)
    (hmis : ∀ p < b.primitives.length, ¬ T.Misplaces (b.ctx order) bvh.indices p)
    (hdep : T.depth ≤ 31) (tris : List (Triangle F32)) (hl : tris.length = b.primitives.length)
    (hfit : BoxesHold tris (boxAt (b.boxes order))) (hm : ∀ a ∈ b.boxes order, a.Moderate)
    (ray : Ray F32) (hw : ray.WellFormed) (ho : ray.origin.Moderate) (hd : ray.direction.Ordinary)
    (hz : ray.direction.NoNegZero) (hti : ray.tMin.IsFin) (hex : NoFalseHits tris ray)
    (fuel : Nat) (hf : 3 * b.primitives.length ≤ fuel) :
    let run := bvh.forIndices (meshCb tris) fuel ray
    run.ending = .finished ∧ run.ray = { ray with t := run.ray.t } ∧ Same run.ray.t (testAll tris ray).t := by
  have hn : ∀ a ∈ b.boxes order, a.Numeric := fun a ha =>
    ⟨⟨(hm a ha).1.1.num, (hm a ha).1.2.1.num, (hm a ha).1.2.2.num⟩, (hm a ha).2.1.num, (hm a ha).2.2.1.num,
      (hm a ha).2.2.2.num⟩
  exact (binned_padded b order ks h hs hn bvh e T hU).trace hmis hdep tris hl hfit
    (fun p hp => hm _ (boxAt_mem (by rw [Builder.boxes_length h]; exact hp))) ray hw ho hd hz hti hex fuel hf

/-- `NoFalseHits` from the parameters of the accepted triangles. -/
theorem noFalseHits_of (tris : List (Triangle F32)) (ray : Ray F32)
    (h : ∀ p < tris.length, (rayTest tris ray p).isSome = true → ∃ s : ℚ, ray.tMin.val ≤ s ∧
      ∀ tr, tris[p]? = some tr → tr.exact.Has (pointOn ray.origin ray.direction s)) : NoFalseHits tris ray := by
  intro p tr T e hacc
  have hlt : p < tris.length := (List.getElem?_eq_some_iff.1 e).1
  obtain ⟨s, h1, h2⟩ := h p hlt (by
    unfold rayTest
    simp only [e]
    rw [intersect_mt] at hacc
    simp only at hacc ⊢
    split at hacc
    · rename_i hc
      rw [Bool.and_eq_true] at hc
      rw [if_pos hc.1]; rfl
    · cases hacc)
  exact ⟨s, h1, h2 tr e⟩

/-- A ray along the x axis into `rowOfTris`, with two zero direction components. -/
def rowOfTrisAxisRay : Ray F32 := Ray.new (whole (-1) 0 0) (whole 1 0 0)

/-- Not vacuous: the four triangles, three of them hit by a ray along the x axis, at 6, 3 and 10. -/
example : (meshScene rowOfTris (some 1)).Legal (List.range 4) ∧
    (∀ a ∈ (meshScene rowOfTris (some 1)).boxes (List.range 4), a.Moderate) ∧
    BoxesHold rowOfTris (boxAt ((meshScene rowOfTris (some 1)).boxes (List.range 4))) ∧
    rowOfTrisAxisRay.WellFormed ∧ rowOfTrisAxisRay.origin.Moderate ∧ rowOfTrisAxisRay.direction.Ordinary ∧
    rowOfTrisAxisRay.direction.NoNegZero ∧ rowOfTrisAxisRay.tMin.IsFin ∧ NoFalseHits rowOfTris rowOfTrisAxisRay ∧
    (testAll rowOfTris rowOfTrisAxisRay).t = lit 3 0 ∧
    ∃ bvh T, (meshScene rowOfTris (some 1)).constructLocb (List.range 4) 2 5 = .ok (some (some bvh)) ∧
      Unfolds bvh.nodes 0 T ∧ T.depth ≤ 31 := by
  refine ⟨meshScene_legal _ _ (by decide) (by decide), ?_, ?_, ?_, ?_, ?_, ?_, ?_, noFalseHits_of _ _ ?_, ?_, ?_⟩
  · unfold Aabb.Moderate Vec3.Moderate; decide +kernel
  · have key : ∀ p < 4, ∀ tr ∈ rowOfTris[p]?, (boxAt ((meshScene rowOfTris (some 1)).boxes (List.range 4)) p).Has tr.v0 ∧
        (boxAt ((meshScene rowOfTris (some 1)).boxes (List.range 4)) p).Has tr.v1 ∧
        (boxAt ((meshScene rowOfTris (some 1)).boxes (List.range 4)) p).Has tr.v2 := by unfold Aabb.Has Vec3.Le; decide +kernel
    exact fun p tr e => key p (List.getElem?_eq_some_iff.1 e).1 tr e
  · unfold Ray.WellFormed; decide +kernel
  · unfold Vec3.Moderate; decide +kernel
  · unfold Vec3.Ordinary; decide +kernel
  · unfold Vec3.NoNegZero; decide +kernel
  · decide +kernel
  · have has : ∀ p < 3, ∀ tr ∈ rowOfTris[p]?, ∃ s : ℚ, s = [6, 3, 10].getD p 0 ∧
        tr.exact.Has (pointOn rowOfTrisAxisRay.origin rowOfTrisAxisRay.direction s) := by
      intro p hp tr e
      refine ⟨_, rfl, 1 / 4, 1 / 4, ?_⟩
      revert p tr; decide +kernel
    have none : rayTest rowOfTris rowOfTrisAxisRay 3 = none := by decide +kernel
    have tm : ∀ p < 3, rowOfTrisAxisRay.tMin.val ≤ [(6 : ℚ), 3, 10].getD p 0 := by decide +kernel
    intro p hp hacc
    have hp3 : p < 3 := by
      have : rowOfTris.length = 4 := rfl
      by_contra hc
      have : p = 3 := by omega
      subst this
      rw [none] at hacc; cases hacc
    refine ⟨_, tm p hp3, fun tr e => ?_⟩
    obtain ⟨s, rfl, hs⟩ := has p hp3 tr e
    exact hs
  · decide +kernel
  · have key : (builtTree ((meshScene rowOfTris (some 1)).constructLocb (List.range 4) 2 5)).map (fun x =>
        decide (x.2.depth ≤ 31)) = some true := by decide +kernel
    obtain ⟨⟨bvh, T⟩, e, h2⟩ := Option.map_eq_some_iff.1 key
    obtain ⟨e1, e2⟩ := builtTree_some e
    exact ⟨bvh, T, e1, e2, of_decide_eq_true h2⟩

end Rtbvh
