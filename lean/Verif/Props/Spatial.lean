import Verif.Proofs.SpatialMain
import Verif.Proofs.UnfoldsDet
import Verif.Props.Validate
import Verif.Props.BinnedBounds
import Verif.Model.Locb
/- Properties of `construct_spatial_sah`: C01 (errors, all three constructors), C09, C42, C59, C60, C61. -/
namespace Rtbvh
variable {F : Type} [FloatOps F]

/-- C01.  The three constructors agree on errors: no primitives gives `NoPrimitives` whatever the boxes; a non-empty list
with a different number of boxes gives `InequalAabbsAndPrimitives(#boxes, #primitives)`; otherwise there is no error. -/
theorem C01_builder_errors (b : Builder F) (order : List Nat) (ks : List Nat) (threads rounds : Nat)
    (split : Nat → Fin 3 → F → Aabb F × Aabb F) (sort : Fin 3 → List (Ref F) → Option (List (Ref F))) :
    (b.primitives = [] → b.constructBinnedSah order ks = .error .noPrimitives ∧
      b.constructLocb order threads rounds = .error .noPrimitives ∧
      b.constructSpatialSah split sort order ks = .error .noPrimitives) ∧
    (∀ l, b.primitives ≠ [] → b.aabbs = some l → l.length ≠ b.primitives.length →
      b.constructBinnedSah order ks = .error (.inequalAabbsAndPrimitives l.length b.primitives.length) ∧
      b.constructLocb order threads rounds = .error (.inequalAabbsAndPrimitives l.length b.primitives.length) ∧
      b.constructSpatialSah split sort order ks = .error (.inequalAabbsAndPrimitives l.length b.primitives.length)) ∧
    (b.primitives ≠ [] → (∀ l, b.aabbs = some l → l.length = b.primitives.length) → ∀ e,
      b.constructBinnedSah order ks ≠ .error e ∧ b.constructLocb order threads rounds ≠ .error e ∧
      b.constructSpatialSah split sort order ks ≠ .error e) := by
  refine ⟨fun h => ?_, fun l hne hl hd => ?_, fun hne hl e => ?_⟩
  · have : b.check order = .error .noPrimitives := by unfold Builder.check; rw [if_pos h]
    simp [Builder.constructBinnedSah, Builder.constructLocb, Builder.constructSpatialSah, this]
  · have : b.check order = .error (.inequalAabbsAndPrimitives l.length b.primitives.length) := by
      unfold Builder.check; rw [if_neg hne, hl]; simp [hd]
    simp [Builder.constructBinnedSah, Builder.constructLocb, Builder.constructSpatialSah, this]
  · have : ∃ a, b.check order = .ok a := by
      unfold Builder.check; rw [if_neg hne]
      cases ha : b.aabbs with
      | none => exact ⟨_, rfl⟩
      | some l => simp [hl l ha]
    obtain ⟨a, ha⟩ := this
    simp [Builder.constructBinnedSah, Builder.constructLocb, Builder.constructSpatialSah, ha]

/-- The result of a completed spatial build. -/
theorem spatial_built {b : Builder F} {split : Nat → Fin 3 → F → Aabb F × Aabb F}
    {sort : Fin 3 → List (Ref F) → Option (List (Ref F))} {order ks : List Nat} (h : b.LegalSpatial order sort)
    {bvh : Bvh F} (e : b.constructSpatialSah split sort order ks = .ok (.ok (some bvh))) :
    ∃ B : BTree F, Unfolds bvh.nodes 0 B ∧ spatialRootTree (b.spatialCtx split sort order) = .ok (B.withIds bvh.indices) ∧
      B.ranges.Pairwise Disjoint2 ∧ B.RangesIn bvh.indices ∧ B.depth ≤ 64 ∧ B.size = bvh.nodes.length ∧
      (∀ i ∈ B.ids bvh.indices, i < b.primitives.length) ∧ bvh.indices.length = referenceLimit F b.primitives.length ∧
      (B.ids bvh.indices).length ≤ referenceLimit F b.primitives.length ∧ bvh.buildType = .spatial ∧
      bvh.nodes.length ≤ 2 * referenceLimit F b.primitives.length + 1 ∧
      ∀ q ∈ B.ranges, q.1 + q.2 ≤ (B.ids bvh.indices).length := by
  obtain ⟨hs, hm, hc⟩ := h.setting (split := split)
  rw [hc, Except.ok.injEq] at e
  rcases spatial_main hs ks with ⟨f, e', _⟩ | ⟨s, _, _, h3, h4⟩
  · rw [e'] at e; simp at e
  · by_cases hp : s.pending = []
    · obtain ⟨e', B, hB⟩ := h4 hp
      rw [e'] at e
      simp only [Except.ok.injEq, Option.some.injEq] at e
      subst e
      rw [hm] at hB
      exact ⟨B, hB⟩
    · rw [h3 hp] at e; simp at e

/-- C59.  Whenever `construct_spatial_sah` returns a BVH, under whatever schedule, it is a well-formed tree: every node
belongs to it, leaf ranges lie inside the index array, do not overlap and together fill its start, depth at most 64, all ids
are ids of primitives; and its leaves hold at least as many references as there are primitives and at most `n + ⌊0.75 n⌋`. -/
theorem C59_spatial_wellformed (b : Builder F) (split : Nat → Fin 3 → F → Aabb F × Aabb F)
    (sort : Fin 3 → List (Ref F) → Option (List (Ref F))) (order ks : List Nat) (h : b.LegalSpatial order sort)
    (bvh : Bvh F) (e : b.constructSpatialSah split sort order ks = .ok (.ok (some bvh))) :
    ∃ T : BTree F, Unfolds bvh.nodes 0 T ∧ T.size = bvh.nodes.length ∧ T.RangesIn bvh.indices ∧
      T.ranges.Pairwise Disjoint2 ∧ (∀ q ∈ T.ranges, q.1 + q.2 ≤ (T.ids bvh.indices).length) ∧
      T.depth ≤ 64 ∧ (∀ i ∈ T.ids bvh.indices, i < b.primitives.length) ∧
      b.primitives.length ≤ (T.ids bvh.indices).length ∧ (T.ids bvh.indices).length ≤ bvh.indices.length ∧
      bvh.indices.length = referenceLimit F b.primitives.length ∧ bvh.buildType = .spatial := by
  obtain ⟨B, h1, h2, h3, h4, h5, h6, h7, h8, h9, h10, _, h12⟩ := spatial_built h e
  have := spatialRootTree_count (h.setting (split := split)).1 h2
  rw [BTree.withIds_ids] at this
  exact ⟨B, h1, h6, h4, h3, h12, h5, h7, this, by omega, h8, h10⟩

/-- C60.  The outcome does not depend on the schedule: if some schedule leads to a BVH then no schedule panics or writes
out of bounds, a schedule is complete exactly when it has two steps per node, and every complete schedule gives the same
tree with the same boxes and the same ids in the same leaves (the position of a leaf's ids in the index array may differ).
Hence if one schedule faults, no schedule leads to a BVH. -/
theorem C60_spatial_schedule_independent (b : Builder F) (split : Nat → Fin 3 → F → Aabb F × Aabb F)
    (sort : Fin 3 → List (Ref F) → Option (List (Ref F))) (order ks : List Nat) (h : b.LegalSpatial order sort)
    (bvh : Bvh F) (e : b.constructSpatialSah split sort order ks = .ok (.ok (some bvh))) :
    (∀ ks' f, b.constructSpatialSah split sort order ks' ≠ .ok (.error f)) ∧
    (∀ ks', b.SpatialSchedule split sort order ks' → ks'.length ≤ 2 * bvh.nodes.length ∧
      ((∃ bvh', b.constructSpatialSah split sort order ks' = .ok (.ok (some bvh'))) ↔ ks'.length = 2 * bvh.nodes.length)) ∧
    (∀ ks' bvh', b.constructSpatialSah split sort order ks' = .ok (.ok (some bvh')) →
      bvh'.nodes.length = bvh.nodes.length ∧ bvh'.indices.length = bvh.indices.length ∧
      ∃ T T' : BTree F, Unfolds bvh.nodes 0 T ∧ Unfolds bvh'.nodes 0 T' ∧ T.withIds bvh.indices = T'.withIds bvh'.indices) := by
  obtain ⟨B, h1, h2, h3, h4, h5, h6, h7, h8, h9, h10, h11⟩ := spatial_built h e
  obtain ⟨hs, hm, hc⟩ := h.setting (split := split)
  refine ⟨fun ks' f hf => ?_, fun ks' hl => ?_, fun ks' bvh' e' => ?_⟩
  · rw [hc, Except.ok.injEq] at hf
    rcases spatial_main hs ks' with ⟨f', e', hT⟩ | ⟨s, _, _, a3, a4⟩
    · have := hT _ h2
      rw [BTree.withIds_size, hm, h6] at this; omega
    · by_cases hp : s.pending = []
      · rw [(a4 hp).1] at hf; simp at hf
      · rw [a3 hp] at hf; simp at hf
  · rcases spatial_main hs ks' with ⟨f', e', hT⟩ | ⟨s, _, a2, a3, a4⟩
    · have := hT _ h2
      rw [BTree.withIds_size, hm, h6] at this; omega
    · have := a2 _ h2 hl
      rw [BTree.withIds_size, h6] at this
      refine ⟨this.1, ?_⟩
      rw [← this.2]
      constructor
      · rintro ⟨bvh', e'⟩
        by_cases hp : s.pending = []
        · exact hp
        · rw [hc, a3 hp] at e'; simp at e'
      · intro hp
        exact ⟨_, by rw [hc, (a4 hp).1]⟩
  · obtain ⟨B', g1, g2, g3, g4, g5, g6, g7, g8, g9, g10, g11⟩ := spatial_built h e'
    rw [h2] at g2
    simp only [Except.ok.injEq] at g2
    refine ⟨?_, by rw [g8, h8], B, B', h1, g1, g2⟩
    rw [← g6, ← h6, ← BTree.withIds_size bvh'.indices B', ← BTree.withIds_size bvh.indices B, g2]

/-- C42, the part that holds: a result in which no id occurs twice lists every primitive, each exactly once.  Missing from
C42: results in which an id occurs twice (with the refutation below). -/
theorem C42_spatial_keeps_partial (b : Builder F) (split : Nat → Fin 3 → F → Aabb F × Aabb F)
    (sort : Fin 3 → List (Ref F) → Option (List (Ref F))) (order ks : List Nat) (h : b.LegalSpatial order sort)
    (bvh : Bvh F) (e : b.constructSpatialSah split sort order ks = .ok (.ok (some bvh))) (T : BTree F)
    (hT : Unfolds bvh.nodes 0 T) (hnd : (T.ids bvh.indices).Nodup) :
    (T.ids bvh.indices).Perm (List.range b.primitives.length) := by
  obtain ⟨T', h1, _, _, _, _, _, h6, h7, _⟩ := C59_spatial_wellformed b split sort order ks h bvh e
  have := hT.det h1; subst this
  refine (hnd.subperm (fun i hi => by simpa using h6 i hi)).perm_of_length_le (by simpa using h7)

/-- C09 for the spatial builder: `validate` never panics on the result and tells whether every primitive was kept. -/
theorem C09_spatial_validate_partial (b : Builder F) (split : Nat → Fin 3 → F → Aabb F × Aabb F)
    (sort : Fin 3 → List (Ref F) → Option (List (Ref F))) (order ks : List Nat) (h : b.LegalSpatial order sort)
    (bvh : Bvh F) (e : b.constructSpatialSah split sort order ks = .ok (.ok (some bvh))) (T : BTree F)
    (hT : Unfolds bvh.nodes 0 T) (fuel : Nat) (hf : 64 < fuel) :
    ∃ r, bvh.validate fuel b.primitives.length = some r ∧ (r = true ↔ ∀ p < b.primitives.length, p ∈ T.ids bvh.indices) := by
  obtain ⟨B, h1, h2, h3, h4, h5, h6, h7, h8, h9, h10, h11⟩ := spatial_built h e
  have := hT.det h1; subst this
  have := h.fits
  exact (C08_validate_exact bvh T ⟨h1, h4⟩ (by omega) (by omega) fuel b.primitives.length (by omega)).1 h7

/-! ### Examples and counterexamples, in binary32 with the provided `split` -/

/-- A point with integer coordinates. -/
def pt (a b c : Int) : Vec3 F32 := ⟨FloatOps.lit a 0, FloatOps.lit b 0, FloatOps.lit c 0⟩
/-- The tight box of a triangle. -/
def triBox (t : Triangle F32) : Aabb F32 := ((Aabb.empty.grow t.v0).grow t.v1).grow t.v2
/-- Centroid. -/
def centroid (t : Triangle F32) : Vec3 F32 :=
  ((t.v0.add t.v1).add t.v2).scale (FloatOps.div FloatOps.one (FloatOps.lit 3 0))
/-- Triangles with their own boxes and centroids. -/
def triScene (ts : List (Triangle F32)) : Builder F32 :=
  { aabbs := none, primitives := ts.map fun t => ⟨centroid t, triBox t⟩, primitivesPerLeaf := none }
/-- The provided `split` of each triangle. -/
def triSplit (ts : List (Triangle F32)) (i : Nat) : Fin 3 → F32 → Aabb F32 × Aabb F32 :=
  (ts.getD i ⟨pt 0 0 0, pt 0 0 0, pt 0 0 0⟩).split

theorem insertRef_perm (axis : Fin 3) (x : Ref F) (l : List (Ref F)) : (insertRef axis x l).Perm (x :: l) := by
  induction l with
  | nil => exact .refl _
  | cons y ys ih =>
    unfold insertRef
    split
    · exact (List.Perm.cons y ih).trans (List.Perm.swap x y ys)
    · exact .refl _

/-- The sort used in the examples is a permutation. -/
theorem refSort_sorts (a : Fin 3) (l l' : List (Ref F)) (h : refSort a l = some l') : l'.Perm l := by
  have key : ∀ (l acc : List (Ref F)), (l.foldl (fun acc x => insertRef a x acc) acc).Perm (l ++ acc) := by
    intro l
    induction l with
    | nil => intro acc; exact .refl _
    | cons x l ih =>
      intro acc
      refine (ih _).trans (((insertRef_perm a x acc).append_left l).trans ?_)
      simpa using (List.perm_middle (a := x) (l₁ := l) (l₂ := acc))
  unfold refSort at h
  simp only [Option.some.injEq] at h
  subst h
  simpa using key l []

theorem triScene_legal (ts : List (Triangle F32)) (order : List Nat) (hne : ts ≠ []) (ho : order.Perm (List.range ts.length))
    (hn : ts.length ≤ 2 ^ 30) (hf : referenceLimit F32 ts.length < 2 ^ 30) : (triScene ts).LegalSpatial order refSort :=
  { nonempty := by simpa [triScene] using hne
    boxes := by simp [triScene]
    order := by simpa [triScene] using ho
    small := by simpa [triScene] using hn
    fits := by simpa [triScene] using hf
    sorts := refSort_sorts }

/-- The finished BVH and its tree, computed. -/
def spatialBuilt (r : Except BuildError (Except Fault (Option (Bvh F)))) : Option (Bvh F × BTree F) :=
  match r with
  | .ok (.ok (some bvh)) => (unfold? bvh.nodes 100 0).map fun T => (bvh, T)
  | _ => none

omit [FloatOps F] in
theorem spatialBuilt_some {r : Except BuildError (Except Fault (Option (Bvh F)))} {bvh : Bvh F} {T : BTree F}
    (h : spatialBuilt r = some (bvh, T)) : r = .ok (.ok (some bvh)) ∧ Unfolds bvh.nodes 0 T := by
  unfold spatialBuilt at h
  split at h
  · simp only [Option.map_eq_some_iff, Prod.mk.injEq] at h
    obtain ⟨T', h1, rfl, rfl⟩ := h
    exact ⟨rfl, unfold?_sound h1⟩
  · simp at h

/-- The fault of a build, if any. -/
def faultOf (r : Except BuildError (Except Fault (Option (Bvh F)))) : Option Fault :=
  match r with
  | .ok (.error f) => some f
  | _ => none

omit [FloatOps F] in
theorem faultOf_some {r : Except BuildError (Except Fault (Option (Bvh F)))} {f : Fault} (h : faultOf r = some f) :
    r = .ok (.error f) := by
  unfold faultOf at h
  split at h
  · cases h; rfl
  · cases h

/-- A triangle with box `[lo, hi] × [0, 1] × [0, 1]`. -/
def sliver (lo hi : Int) : Triangle F32 := ⟨pt lo 0 0, pt hi 1 0, pt lo 0 1⟩
/-- Three triangles with pairwise disjoint boxes. -/
def lostScene : List (Triangle F32) := [sliver 0 9, sliver 11 12, sliver 13 14]

/-- C42 is false: three disjoint triangles are built into a BVH that contains triangle 1 twice and triangle 2 not at all,
so `validate` returns false and no query can report triangle 2. -/
theorem C42_primitive_lost : ∃ (bvh : Bvh F32) (T : BTree F32),
    (triScene lostScene).LegalSpatial [0, 1, 2] refSort ∧
    (triScene lostScene).constructSpatialSah (triSplit lostScene) refSort [0, 1, 2] (List.replicate 10 0) =
      .ok (.ok (some bvh)) ∧
    Unfolds bvh.nodes 0 T ∧ T.ids bvh.indices = [0, 1, 1] ∧ 2 ∉ T.ids bvh.indices ∧
    bvh.validate 100 3 = some false := by
  have key : (spatialBuilt ((triScene lostScene).constructSpatialSah (triSplit lostScene) refSort [0, 1, 2]
      (List.replicate 10 0))).map (fun x => (x.2.ids x.1.indices, x.1.validate 100 3)) = some ([0, 1, 1], some false) := by
    decide +kernel
  rw [Option.map_eq_some_iff] at key
  obtain ⟨⟨bvh, T⟩, h1, h2⟩ := key
  obtain ⟨e, hU⟩ := spatialBuilt_some h1
  simp only [Prod.mk.injEq] at h2
  exact ⟨bvh, T, triScene_legal _ _ (by decide) (by decide) (by decide) (by decide +kernel), e, hU, h2.1, by rw [h2.1]; decide, h2.2⟩

/-- C09 is false for the spatial builder. -/
theorem C09_spatial_not_valid : ∃ (b : Builder F32) (split : Nat → Fin 3 → F32 → Aabb F32 × Aabb F32) (order ks : List Nat)
    (bvh : Bvh F32), b.LegalSpatial order refSort ∧ b.constructSpatialSah split refSort order ks = .ok (.ok (some bvh)) ∧
    bvh.validate 100 b.primitives.length = some false := by
  obtain ⟨bvh, T, h1, h2, _, _, _, h3⟩ := C42_primitive_lost
  exact ⟨_, _, _, _, bvh, h1, h2, h3⟩

/-- Five triangles with small integer coordinates. -/
def panicScene : List (Triangle F32) :=
  [⟨pt 0 2 1, pt 2 1 2, pt 0 0 2⟩, ⟨pt 0 2 1, pt 2 2 0, pt 2 2 1⟩, ⟨pt 1 2 0, pt 2 2 2, pt 2 2 2⟩,
   ⟨pt 0 2 0, pt 1 0 2, pt 2 2 2⟩, ⟨pt 2 2 1, pt 2 2 1, pt 0 2 1⟩]

/-- C61 is false: on five triangles the build panics (a slice index in `apply_spatial_split`), hence (C60) it returns a
BVH under no schedule. -/
theorem C61_spatial_panics : (triScene panicScene).LegalSpatial (List.range 5) refSort ∧
    (triScene panicScene).constructSpatialSah (triSplit panicScene) refSort (List.range 5) (List.replicate 4 0) =
      .ok (.error .panic) ∧
    ∀ ks bvh, (triScene panicScene).constructSpatialSah (triSplit panicScene) refSort (List.range 5) ks ≠
      .ok (.ok (some bvh)) := by
  have hl : (triScene panicScene).LegalSpatial (List.range 5) refSort :=
    triScene_legal _ _ (by decide) (by decide) (by decide) (by decide +kernel)
  have e := faultOf_some (r := (triScene panicScene).constructSpatialSah (triSplit panicScene) refSort (List.range 5)
    (List.replicate 4 0)) (f := .panic) (by decide +kernel)
  exact ⟨hl, e, fun ks bvh e' => (C60_spatial_schedule_independent _ _ _ _ _ hl bvh e').1 _ _ e⟩

/-- Two triangles, the caller's box of the second upside down in z. -/
def wildScene : Builder F32 :=
  { triScene [sliver 0 2, sliver 5 7] with
    aabbs := some [⟨pt 0 0 0, 0, pt 2 2 1, 0⟩, ⟨pt 5 0 2, 0, pt 7 2 0, 0⟩] }

/-- C61 is false for boxes with `min > max` in a worse way: the safe API writes outside its buffers. -/
theorem C61_spatial_wild_write : wildScene.LegalSpatial [0, 1] refSort ∧
    wildScene.constructSpatialSah (triSplit [sliver 0 2, sliver 5 7]) refSort [0, 1] [0] = .ok (.error .wildWrite) := by
  refine ⟨{ nonempty := by decide, boxes := by decide, order := by decide, small := by decide, fits := by decide +kernel, sorts := refSort_sorts },
    faultOf_some (by decide +kernel)⟩

/-- Non-vacuity of C59, C60, C42, C09: a scene of three triangles builds completely, nothing is lost. -/
def keptScene : List (Triangle F32) := [sliver 0 1, sliver 10 11, sliver 20 21]
example : (triScene keptScene).LegalSpatial [0, 1, 2] refSort ∧
    (spatialBuilt ((triScene keptScene).constructSpatialSah (triSplit keptScene) refSort [0, 1, 2]
      (List.replicate 10 0))).map (fun x => (x.2.ids x.1.indices, x.1.validate 100 3, x.1.nodes.length)) =
      some ([0, 1, 2], some true, 5) :=
  ⟨triScene_legal _ _ (by decide) (by decide) (by decide) (by decide +kernel), by decide +kernel⟩
/-- Another schedule of the same build: the leaves are stored in another order, the tree is the same. -/
example : (spatialBuilt ((triScene keptScene).constructSpatialSah (triSplit keptScene) refSort [0, 1, 2]
      [0, 0, 1, 1, 1, 1, 0, 0, 0, 0])).map (fun x => (x.2.ids x.1.indices, x.1.indices)) =
      some ([0, 1, 2], [1, 2, 0, 0, 0]) := by decide +kernel

end Rtbvh
