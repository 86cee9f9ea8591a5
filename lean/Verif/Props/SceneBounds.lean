import Verif.Props.Refit
import Verif.Props.Locb
import Verif.Props.Spatial
/- Property C55 for the clustering and the spatial builder. -/
namespace Rtbvh
open FloatOps LawfulFloat Aabb

section lawful
variable {F : Type} [FloatOps F] [LawfulFloat F]

/-- C55 for the spatial builder, over any lawful float type: a point of an input box is strictly inside `bounds()`, even
when the builder has lost the primitive (C42). -/
theorem C55_spatial_contains_padded (b : Builder F) (split : Nat → Fin 3 → F → Aabb F × Aabb F)
    (sort : Fin 3 → List (Ref F) → Option (List (Ref F))) (order ks : List Nat) (h : b.LegalSpatial order sort)
    (bvh : Bvh F) (e : b.constructSpatialSah split sort order ks = .ok (.ok (some bvh)))
    (hn : ∀ a ∈ b.boxes order, a.Numeric) (a : Aabb F) (ha : a ∈ b.boxes order) (v : Vec3 F) (hv : a.Has v)
    (hs : PadStrict v.x ∧ PadStrict v.y ∧ PadStrict v.z) : bvh.bounds.contains v = true := by
  obtain ⟨B, hU, hB, _⟩ := spatial_built h e
  have h1 := (foldl_growBB hn new_numeric).2 a ha
  have h2 : (unionOfList (b.boxes order)).contains v = true := contains_offset (h1.has hv) hs
  have hun : (unionOfList (b.boxes order)).Numeric := (unionOfList_contains hn a ha).num_right
  have h3 : (unionOfList (b.boxes order)).Within B.bounds := by
    have hpad := within_pad (Within.refl hun)
    unfold spatialRootTree at hB
    rw [show (b.spatialCtx split sort order).maxDepth = 64 from rfl,
      show (b.spatialCtx split sort order).aabbs = b.boxes order from rfl] at hB
    unfold spatialTree at hB
    split at hB
    · cases hB
    · simp only [Except.ok.injEq] at hB
      cases B with
      | leaf bd f c => simp only [BTree.withIds, IdTree.leaf.injEq] at hB; rw [show (BTree.leaf bd f c).bounds = bd from rfl, ← hB.1]; exact Within.refl hun
      | node bd l r => simp [BTree.withIds] at hB
    · obtain ⟨L, R, _, _, hT⟩ := combine_ok hB
      cases B with
      | leaf bd f c => simp [BTree.withIds] at hT
      | node bd l r => simp only [BTree.withIds, IdTree.node.injEq] at hT; rw [show (BTree.node bd l r).bounds = bd from rfl, hT.1]; exact hpad
  rw [← Bvh.bounds_eq hU] at h3
  exact contains_mono (b := bvh.bounds) h3 h2

end lawful

theorem rat_padStrict (x : Rat) : PadStrict x := by
  have : (0 : Rat) < FloatOps.lit 1 (-4) := by
    show (0 : Rat) < ((1 : Int) : Rat) * ratPow10 (-4)
    have := ratPow10_pos (-4)
    simpa using this
  constructor
  · rw [rat_lt]; show x - _ < x; linarith
  · rw [rat_lt]; show x < x + _; linarith

/-- C55 for the clustering builder in exact arithmetic: no restriction. -/
theorem C55_locb_contains_exact (b : Builder Rat) (order : List Nat) (h : b.Legal order) (t fuel : Nat) (ht : 0 < t)
    (hs : b.primitives.length ≤ 2 ^ 29) (bvh : Bvh Rat) (e : b.constructLocb order t fuel = .ok (some (some bvh)))
    (a : Aabb Rat) (ha : a ∈ b.boxes order) (v : Vec3 Rat) (hv : a.Has v) : bvh.bounds.contains v = true :=
  C55_locb_contains_padded b order h t fuel ht hs bvh e (fun _ _ => ⟨⟨rfl, rfl, rfl⟩, ⟨rfl, rfl, rfl⟩⟩) a ha v hv
    ⟨rat_padStrict _, rat_padStrict _, rat_padStrict _⟩

/-- C55 for the spatial builder in exact arithmetic: no restriction. -/
theorem C55_spatial_contains_exact (b : Builder Rat) (split : Nat → Fin 3 → Rat → Aabb Rat × Aabb Rat)
    (sort : Fin 3 → List (Ref Rat) → Option (List (Ref Rat))) (order ks : List Nat) (h : b.LegalSpatial order sort)
    (bvh : Bvh Rat) (e : b.constructSpatialSah split sort order ks = .ok (.ok (some bvh)))
    (a : Aabb Rat) (ha : a ∈ b.boxes order) (v : Vec3 Rat) (hv : a.Has v) : bvh.bounds.contains v = true :=
  C55_spatial_contains_padded b split sort order ks h bvh e (fun _ _ => ⟨⟨rfl, rfl, rfl⟩, ⟨rfl, rfl, rfl⟩⟩) a ha v hv
    ⟨rat_padStrict _, rat_padStrict _, rat_padStrict _⟩

/-- C55 for the clustering builder in binary32: true for points with coordinates of magnitude below 2048. -/
theorem C55_locb_contains_f32_partial (b : Builder F32) (order : List Nat) (h : b.Legal order) (t fuel : Nat) (ht : 0 < t)
    (hs : b.primitives.length ≤ 2 ^ 29) (bvh : Bvh F32) (e : b.constructLocb order t fuel = .ok (some (some bvh)))
    (hn : ∀ a ∈ b.boxes order, a.Numeric) (a : Aabb F32) (ha : a ∈ b.boxes order) (v : Vec3 F32) (hv : a.Has v)
    (hx : (FloatOps.abs v.x <. lit 2048 0) = true) (hy : (FloatOps.abs v.y <. lit 2048 0) = true)
    (hz : (FloatOps.abs v.z <. lit 2048 0) = true) : bvh.bounds.contains v = true :=
  C55_locb_contains_padded b order h t fuel ht hs bvh e hn a ha v hv ⟨f32_pad_strict hx, f32_pad_strict hy, f32_pad_strict hz⟩

/-- C55 for the spatial builder in binary32: true for points with coordinates of magnitude below 2048. -/
theorem C55_spatial_contains_f32_partial (b : Builder F32) (split : Nat → Fin 3 → F32 → Aabb F32 × Aabb F32)
    (sort : Fin 3 → List (Ref F32) → Option (List (Ref F32))) (order ks : List Nat) (h : b.LegalSpatial order sort)
    (bvh : Bvh F32) (e : b.constructSpatialSah split sort order ks = .ok (.ok (some bvh)))
    (hn : ∀ a ∈ b.boxes order, a.Numeric) (a : Aabb F32) (ha : a ∈ b.boxes order) (v : Vec3 F32) (hv : a.Has v)
    (hx : (FloatOps.abs v.x <. lit 2048 0) = true) (hy : (FloatOps.abs v.y <. lit 2048 0) = true)
    (hz : (FloatOps.abs v.z <. lit 2048 0) = true) : bvh.bounds.contains v = true :=
  C55_spatial_contains_padded b split sort order ks h bvh e hn a ha v hv
    ⟨f32_pad_strict hx, f32_pad_strict hy, f32_pad_strict hz⟩

/-- Not vacuous: the scene of `C42_primitive_lost`; the corner (14, 1, 0) of the lost triangle is strictly inside. -/
example : (triScene lostScene).LegalSpatial [0, 1, 2] refSort ∧
    (∀ a ∈ (triScene lostScene).boxes [0, 1, 2], a.Numeric) ∧
    (spatialBuilt ((triScene lostScene).constructSpatialSah (triSplit lostScene) refSort [0, 1, 2]
      (List.replicate 10 0))).map (fun x => x.1.bounds.contains (pt 14 1 0)) = some true := by
  refine ⟨triScene_legal _ _ (by decide) (by decide) (by decide) (by decide +kernel), ?_, by decide +kernel⟩
  unfold Aabb.Numeric Vec3.Numeric Num
  decide +kernel

end Rtbvh
