import Verif.Props.EndToEnd
import Verif.Props.Triangle
/- Properties C68 (tracing a triangle mesh), C69 (occlusion queries). -/
namespace Rtbvh
open FloatOps Aabb

/-! C68 -/

/-- The loop body of a mesh tracer: `triangles[id].intersect(ray)` for every yielded id. -/
def meshCb {F : Type} [FloatOps F] (tris : List (Triangle F)) (r : Ray F) (p : Nat) : Ray F × Bool :=
  match tris[p]? with
  | some tr => ((tr.intersect r).1, false)
  | none => (r, false)

/-- The ray meets triangle `p` of the mesh at parameter `s`, and is not (nearly) parallel to its plane: `intersect`
ignores triangles whose determinant is inside `(-1e-5, 1e-5)`. -/
def MeshHit (tris : List (Triangle Rat)) (ray : Ray Rat) (p : Nat) (s : Rat) : Prop :=
  ∃ tr, tris[p]? = some tr ∧ (tr.det ray.direction ≤ -(1 / 100000) ∨ 1 / 100000 ≤ tr.det ray.direction) ∧
    tr.Has (ray.at s)

/-- The boxes contain the triangles' vertices. -/
def BoxesFit (tris : List (Triangle Rat)) (boxes : Nat → Aabb Rat) : Prop :=
  ∀ p tr, tris[p]? = some tr → (boxes p).Has tr.v0 ∧ (boxes p).Has tr.v1 ∧ (boxes p).Has tr.v2

theorem getPointAt_eq (ray : Ray Rat) (s : Rat) : ray.getPointAt s = ray.at s := rfl

theorem meshHit_box {tris : List (Triangle Rat)} {boxes : Nat → Aabb Rat} (h : BoxesFit tris boxes) {ray : Ray Rat}
    (p : Nat) (s : Rat) (hh : MeshHit tris ray p s) : (boxes p).Has (ray.getPointAt s) := by
  obtain ⟨tr, e, _, hs⟩ := hh
  obtain ⟨h0, h1, h2⟩ := h p tr e
  exact C39_hit_in_box tr _ hs _ h0 h1 h2

theorem meshCb_closest (tris : List (Triangle Rat)) (ray : Ray Rat) : ClosestHit ray (MeshHit tris ray) (meshCb tris) := by
  refine ⟨fun r p => ?_, fun t p => ?_⟩
  · unfold meshCb
    cases e : tris[p]? with
    | none => exact ⟨r.t, le_rfl, rfl⟩
    | some tr =>
      obtain ⟨h1, h2⟩ := C38_intersect_protocol tr r
      cases hb : (tr.intersect r).2 with
      | true =>
        obtain ⟨a, _, c⟩ := h1 hb
        exact ⟨_, (rat_lt.1 c).le, by rw [← a]⟩
      | false => exact ⟨r.t, le_rfl, by show ((tr.intersect r).1, false) = _; rw [h2 hb]⟩
  · unfold meshCb
    cases e : tris[p]? with
    | none =>
      refine ⟨t, rfl, le_rfl, ?_, .inl rfl⟩
      rintro s ⟨tr, e', _⟩; rw [e] at e'; cases e'
    | some tr =>
      have h38 := C38_intersect_protocol tr { ray with t := t }
      have h39 := C39_intersect_exact tr { ray with t := t }
      generalize hr : ({ ray with t := t } : Ray Rat) = r at h38 h39
      have hd : r.direction = ray.direction := by rw [← hr]
      have hm : r.tMin = ray.tMin := by rw [← hr]
      have ht : r.t = t := by rw [← hr]
      have ha : ∀ s, r.at s = ray.at s := fun s => by rw [← hr]; rfl
      rw [hd, hm, ht] at h39
      rw [hm, ht] at h38
      simp only [ha] at h39
      cases hb : (tr.intersect r).2 with
      | true =>
        obtain ⟨a, b1, c⟩ := h38.1 hb
        obtain ⟨hhas, huniq⟩ := h39.2 hb
        refine ⟨(tr.intersect r).1.t, ?_, (rat_lt.1 c).le, ?_, .inr ⟨⟨tr, e, (h39.1.1 hb).1, hhas⟩, rat_lt.1 b1⟩⟩
        · show ((tr.intersect r).1, false) = _
          rw [a, ← hr]
        · rintro s ⟨tr', e', _, hs⟩ _ _
          rw [e] at e'; cases e'
          exact (huniq s hs).ge
      | false =>
        refine ⟨t, ?_, le_rfl, ?_, .inl rfl⟩
        · show ((tr.intersect r).1, false) = _
          rw [h38.2 hb, ← hr]
        · rintro s ⟨tr', e', hdet, hs⟩ h1 h2
          rw [e] at e'; cases e'
          have := h39.1.2 ⟨hdet, s, h1, h2, hs⟩
          rw [hb] at this; cases this

/-- C68: a mesh traced through a BVH of the clustering builder.  Build over boxes that contain the triangles' vertices,
run `Triangle::intersect` on every id the traversal yields; afterwards `ray.t` is the smallest parameter in
`(t_min, t)` at which the ray meets any triangle of the mesh (the old `t` if there is none).  In exact arithmetic, for
trees at most 31 deep, and the same through the `Mbvh` made from the BVH. -/
theorem C68_mesh_locb (tris : List (Triangle Rat)) (b : Builder Rat) (order : List Nat) (h : b.Legal order)
    (t rounds : Nat) (ht : 0 < t) (hs : b.primitives.length ≤ 2 ^ 29) (hfit : BoxesFit tris (boxAt (b.boxes order)))
    (bvh : Bvh Rat) (e : b.constructLocb order t rounds = .ok (some (some bvh))) (T : BTree Rat)
    (hU : Unfolds bvh.nodes 0 T) (ray : Ray Rat) (hw : ray.WellFormed) (hd : ray.direction.NonZero) :
    (T.depth ≤ 31 → ∀ fuel ≥ 3 * b.primitives.length, ∃ t,
      (bvh.forIndices (meshCb tris) fuel ray).ray = { ray with t := t } ∧
      IsNearest (MeshHit tris ray) (List.range b.primitives.length) ray.tMin ray.t t) ∧
    (T.depth ≤ 22 ∨ T.leaves ≤ 65 → ∀ depth > T.depth, ∃ q : Mbvh Rat, Mbvh.construct depth bvh = some q ∧
      ∃ N, ∀ fuel ≥ N, ∃ t, (q.forIndices (meshCb tris) fuel ray).ray = { ray with t := t } ∧
        IsNearest (MeshHit tris ray) (List.range b.primitives.length) ray.tMin ray.t t) :=
  C63_locb_nearest b order h t rounds ht hs bvh e T hU ray hw hd _ (fun p s hh => meshHit_box hfit p s hh) _
    (meshCb_closest tris ray)

/-- C68 for binned builds that misplace nothing (`Spec/Sah.lean`).  Missing: builds that do, where boxes can miss their
primitives (`C07_left_child_misses`, `C07_misplaced_there`). -/
theorem C68_mesh_binned_partial (tris : List (Triangle Rat)) (b : Builder Rat) (order ks : List Nat) (h : b.Legal order)
    (hs : b.primitives.length ≤ 2 ^ 29) (hfit : BoxesFit tris (boxAt (b.boxes order)))
    (bvh : Bvh Rat) (e : b.constructBinnedSah order ks = .ok (some (some bvh))) (T : BTree Rat)
    (hU : Unfolds bvh.nodes 0 T)
    (hm : ∀ p < b.primitives.length, ¬ T.Misplaces (b.ctx order) bvh.indices p)
    (ray : Ray Rat) (hw : ray.WellFormed) (hd : ray.direction.NonZero) :
    (T.depth ≤ 31 → ∀ fuel ≥ 3 * b.primitives.length, ∃ t,
      (bvh.forIndices (meshCb tris) fuel ray).ray = { ray with t := t } ∧
      IsNearest (MeshHit tris ray) (List.range b.primitives.length) ray.tMin ray.t t) ∧
    (T.depth ≤ 22 ∨ T.leaves ≤ 65 → ∀ depth > T.depth, ∃ q : Mbvh Rat, Mbvh.construct depth bvh = some q ∧
      ∃ N, ∀ fuel ≥ N, ∃ t, (q.forIndices (meshCb tris) fuel ray).ray = { ray with t := t } ∧
        IsNearest (MeshHit tris ray) (List.range b.primitives.length) ray.tMin ray.t t) :=
  C63_binned_nearest_partial b order ks h hs bvh e T hU hm ray hw hd _ (fun p s hh => meshHit_box hfit p s hh) _
    (meshCb_closest tris ray)

/-- The `Primitive` a mesh triangle is in the crate's tests and examples (src/lib.rs 165-178): centroid, and the box
grown over the three vertices. -/
def triPrim {F : Type} [FloatOps F] (tr : Triangle F) : Prim F :=
  { center := ((tr.v0.add tr.v1).add tr.v2).scale (FloatOps.one /. lit 3 0)
    aabb := ((Aabb.empty.grow tr.v0).grow tr.v1).grow tr.v2 }

/-- A mesh scene with explicit boxes. -/
def meshScene {F : Type} [FloatOps F] (tris : List (Triangle F)) (ppl : Option Nat) : Builder F :=
  { aabbs := some (tris.map fun tr => (triPrim tr).aabb), primitives := tris.map triPrim, primitivesPerLeaf := ppl }

/-- The boxes of a mesh scene fit. -/
theorem meshScene_fit (tris : List (Triangle Rat)) (ppl : Option Nat) (order : List Nat) :
    BoxesFit tris (boxAt ((meshScene tris ppl).boxes order)) := by
  intro p tr e
  have hb : boxAt ((meshScene tris ppl).boxes order) p = (triPrim tr).aabb := by
    simp [boxAt, Builder.boxes, meshScene, List.getD_eq_getElem?_getD, e]
  rw [hb]
  obtain ⟨_, h2⟩ := foldl_grow (F := Rat) (ps := [tr.v0, tr.v1, tr.v2]) (fun _ _ => ⟨rfl, rfl, rfl⟩)
    (a := Aabb.empty) new_numeric
  exact ⟨h2 _ (by simp), h2 _ (by simp), h2 _ (by simp)⟩

theorem meshScene_legal {F : Type} [FloatOps F] (tris : List (Triangle F)) (ppl : Option Nat) (h : tris ≠ [])
    (hl : tris.length ≤ 2 ^ 30) : (meshScene tris ppl).Legal (List.range tris.length) :=
  ⟨by simpa [meshScene] using h, by simp [meshScene], by simp [meshScene], by simpa [meshScene] using hl⟩

/-- Three triangles one behind the other. -/
def threeTris : List (Triangle Rat) :=
  [⟨⟨5, -1, -1⟩, ⟨5, 3, -1⟩, ⟨5, -1, 3⟩⟩, ⟨⟨2, -1, -1⟩, ⟨2, 3, -1⟩, ⟨2, -1, 3⟩⟩, ⟨⟨9, -1, -1⟩, ⟨9, 3, -1⟩, ⟨9, -1, 3⟩⟩]

/-- Non-vacuity of C68: three triangles; both builders; the ray meets all three and `ray.t` ends at the nearest. -/
example : (meshScene threeTris (some 3)).Legal (List.range 3) ∧ exRay.WellFormed ∧ exRay.direction.NonZero ∧
    (builtTree ((meshScene threeTris (some 3)).constructLocb (List.range 3) 2 5)).map (fun x =>
      (x.2.depth, (x.1.forIndices (meshCb threeTris) 9 exRay).items, (x.1.forIndices (meshCb threeTris) 9 exRay).ray.t)) =
      some (2, [2, 0, 1], 3) ∧
    (builtTree ((meshScene threeTris (some 3)).constructBinnedSah (List.range 3) (List.replicate 10 0))).map (fun x =>
      (x.1.forIndices (meshCb threeTris) 9 exRay).ray.t) = some 3 :=
  ⟨meshScene_legal _ _ (by decide) (by decide), by decide +kernel, by decide +kernel, by decide +kernel, by decide +kernel⟩

end Rtbvh
