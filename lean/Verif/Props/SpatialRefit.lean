import Verif.Proofs.SpatialLinks
import Verif.Props.Refit
import Verif.Props.Spatial
/- C18 for BVHs of `construct_spatial_sah`. -/
namespace Rtbvh
variable {F : Type} [FloatOps F]
open FloatOps

/-- C18 for the spatial builder: under every schedule its BVHs satisfy the link hypotheses of the refit theorems, and
`refit` with one box for each primitive does not panic, although the index array is longer than the leaf ranges and
lists primitives more than once. -/
theorem C18_refit_after_spatial (b : Builder F) (split : Nat → Fin 3 → F → Aabb F × Aabb F)
    (sort : Fin 3 → List (Ref F) → Option (List (Ref F))) (order ks : List Nat) (h : b.LegalSpatial order sort)
    (bvh : Bvh F) (e : b.constructSpatialSah split sort order ks = .ok (.ok (some bvh))) :
    bvh.LinksOk ∧ bvh.nodes.length < 2 ^ 31 ∧ bvh.indices.length < 2 ^ 31 ∧
      ∀ newAabbs : List (Aabb F), newAabbs.length = b.primitives.length →
        ∃ bvh', bvh.refit newAabbs = some bvh' ∧ bvh'.indices = bvh.indices ∧ bvh'.nodes.length = bvh.nodes.length := by
  obtain ⟨hs, hm, hc⟩ := h.setting (split := split)
  obtain ⟨B, -, -, -, -, -, -, -, h8, -, -, h11, -⟩ := spatial_built h e
  rw [hc, Except.ok.injEq] at e
  obtain ⟨hl, hp⟩ := spatial_links hs e
  have hf := h.fits
  have hn : bvh.nodes.length < 2 ^ 31 := by omega
  have hi : bvh.indices.length < 2 ^ 31 := by omega
  exact ⟨hl, hn, hi, fun newAabbs hlen => C18_refit_total bvh newAabbs hl hn hi (fun p hq => by rw [hlen]; exact hp p hq)⟩

/-- C18 for the spatial builder, the whole chain: after a build and a `refit` with numeric boxes, the new root box contains
the new box of every primitive that some leaf lists; clipping no longer matters. -/
theorem C18_refit_spatial_root [LawfulFloat F] (b : Builder F) (split : Nat → Fin 3 → F → Aabb F × Aabb F)
    (sort : Fin 3 → List (Ref F) → Option (List (Ref F))) (order ks : List Nat) (h : b.LegalSpatial order sort)
    (bvh bvh' : Bvh F) (e : b.constructSpatialSah split sort order ks = .ok (.ok (some bvh)))
    (newAabbs : List (Aabb F)) (hnum : ∀ a ∈ newAabbs, a.Numeric) (e' : bvh.refit newAabbs = some bvh')
    (T : BTree F) (hU : Unfolds bvh.nodes 0 T) (p : Nat) (hp : p ∈ T.ids bvh.indices) :
    ∃ root, bvh'.nodes[0]? = some root ∧ (boxAt newAabbs p).Within root.bounds := by
  obtain ⟨hl, hn, hi, -⟩ := C18_refit_after_spatial b split sort order ks h bvh e
  obtain ⟨B, hB, -, -, hR, -⟩ := spatial_built h e
  obtain rfl := Unfolds.det hB hU
  exact C18_refit_contains bvh bvh' newAabbs hl hn hi hnum e' 0 _ hU hR p hp

/-- Non-vacuity: the binary32 build of C42, which lists triangle 1 twice, is refitted to moved boxes; the root then
reaches to 110. -/
example : (triScene lostScene).LegalSpatial [0, 1, 2] refSort ∧
    ((spatialBuilt ((triScene lostScene).constructSpatialSah (triSplit lostScene) refSort [0, 1, 2] (List.replicate 10 0))).bind
      fun x => (x.1.refit ((triScene [sliver 0 9, sliver 100 110, sliver 13 14]).boxes [0, 1, 2])).map fun b =>
        (x.2.ids x.1.indices, b.nodes.map fun n => decide ((lit 109 0 : F32) <. n.bounds.max.x))) =
      some ([0, 1, 1], [true, false, true, true, true]) := by
  refine ⟨triScene_legal _ _ (by decide) (by decide) (by decide) (by decide +kernel), by decide +kernel⟩

end Rtbvh
