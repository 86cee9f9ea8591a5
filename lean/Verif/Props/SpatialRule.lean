import Verif.Proofs.SpatialRule
import Verif.Props.Spatial
/- C75: the spatial builder cuts every node by its rule. -/
namespace Rtbvh
open FloatOps
variable {F : Type} [FloatOps F] [LawfulFloat F]

omit [LawfulFloat F] in
theorem spatialCtx_params {b : Builder F} {split : Nat → Fin 3 → F → Aabb F × Aabb F}
    {sort : Fin 3 → List (Ref F) → Option (List (Ref F))} {order : List Nat} :
    SpatialParams b split sort order (b.spatialCtx split sort order) := by
  refine ⟨rfl, by simp [Builder.spatialCtx, SpatialCtx.new], fun i p hp => ?_, rfl, rfl, rfl, rfl, rfl, rfl, rfl, rfl⟩
  simp [Builder.spatialCtx, SpatialCtx.new, List.getElem?_zipIdx, hp]

omit [LawfulFloat F] in
theorem spatial_start {b : Builder F} {split : Nat → Fin 3 → F → Aabb F × Aabb F}
    {sort : Fin 3 → List (Ref F) → Option (List (Ref F))} {order : List Nat} (h : b.LegalSpatial order sort) :
    SpatialStart b order (.ofFn fun _ => initialRefs (b.spatialCtx split sort order)) := by
  obtain ⟨hs, hm, _⟩ := h.setting (split := split)
  have hb := Builder.boxes_length h.toLegal
  refine ⟨fun a => ?_, fun a i p hp => ?_, fun a x hx => ?_⟩
  · rw [RefView.get_ofFn, initialRefs_length (by rw [hs.prims, hs.aabbs]), hm]
  · rw [RefView.get_ofFn]
    have hi : i < b.primitives.length := by
      rw [List.getElem?_eq_some_iff] at hp; exact hp.1
    have hsm := h.small
    have hbi : i < (b.boxes order).length := by omega
    refine ⟨(b.boxes order)[i], List.getElem?_eq_getElem hbi, ?_⟩
    have hpr : (b.spatialCtx split sort order).prims[i]? = some ⟨p.center, split i⟩ := spatialCtx_params.prims i p hp
    have hab : (b.spatialCtx split sort order).aabbs = b.boxes order := rfl
    unfold initialRefs
    rw [List.getElem?_append_left (by simp [hs.prims, hs.aabbs]; omega), List.getElem?_map, List.getElem?_zipIdx,
      List.getElem?_zip_eq_some (z := ((b.boxes order)[i], ⟨p.center, split i⟩)) |>.2 ⟨by rw [hab]; exact List.getElem?_eq_getElem hbi, hpr⟩]
    simp only [Option.map_some, Nat.zero_add, Nat.mod_eq_of_lt (show i < 2 ^ 32 by omega)]
  · rw [RefView.get_ofFn] at hx
    unfold initialRefs at hx
    rw [List.drop_left' (by simp [hs.prims, hs.aabbs])] at hx
    exact List.eq_of_mem_replicate hx

/-- C75.  Every BVH that `construct_spatial_sah` returns, for any scene, schedule, sort and provided `split`, is cut at
every node by the rule of `SpatialRule`, starting from one reference per primitive and the root box, with the overlap
threshold `1e-5 * 2 * half area of the root box`. -/
theorem C75_spatial_rule {b : Builder F} {split : Nat → Fin 3 → F → Aabb F × Aabb F}
    {sort : Fin 3 → List (Ref F) → Option (List (Ref F))} {order ks : List Nat} (h : b.LegalSpatial order sort)
    {bvh : Bvh F} (e : b.constructSpatialSah split sort order ks = .ok (.ok (some bvh))) :
    ∃ (T : BTree F) (ctx : SpatialCtx F) (V : RefView F), Unfolds bvh.nodes 0 T ∧ SpatialParams b split sort order ctx ∧
      SpatialStart b order V ∧
      SpatialRule ctx (lit 1 (-5) *. lit 2 0 *. (Aabb.unionOfList (b.boxes order)).halfArea)
        (fun _ _ _ => True) 0
        (Aabb.unionOfList (b.boxes order)) V 0 b.primitives.length false (T.withIds bvh.indices) := by
  obtain ⟨T, hU, hT, _⟩ := spatial_built h e
  obtain ⟨hs, _, _⟩ := h.setting (split := split)
  exact ⟨T, _, _, hU, spatialCtx_params, spatial_start h, spatialRootTree_rule hs hT⟩

/-- Not vacuous: three triangles, built. -/
example : ∃ (bvh : Bvh F32) (T : BTree F32) (ctx : SpatialCtx F32) (V : RefView F32), Unfolds bvh.nodes 0 T ∧
    T.ids bvh.indices = [0, 1, 2] ∧
    SpatialRule ctx (lit 1 (-5) *. lit 2 0 *. (Aabb.unionOfList ((triScene keptScene).boxes [0, 1, 2])).halfArea)
      (fun _ _ _ => True) 0
      (Aabb.unionOfList ((triScene keptScene).boxes [0, 1, 2])) V 0 3 false (T.withIds bvh.indices) := by
  have key : (spatialBuilt ((triScene keptScene).constructSpatialSah (triSplit keptScene) refSort [0, 1, 2]
      (List.replicate 10 0))).map (fun x => x.2.ids x.1.indices) = some [0, 1, 2] := by decide +kernel
  rw [Option.map_eq_some_iff] at key
  obtain ⟨⟨bvh, T⟩, h1, h2⟩ := key
  obtain ⟨e, hU⟩ := spatialBuilt_some h1
  obtain ⟨T', ctx, V, hU', _, _, hR⟩ := C75_spatial_rule
    (triScene_legal keptScene [0, 1, 2] (by decide) (by decide) (by decide) (by decide +kernel)) e
  rw [hU'.det hU] at hR
  exact ⟨bvh, T, ctx, V, hU, h2, hR⟩

end Rtbvh
