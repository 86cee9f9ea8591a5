import Verif.Proofs.SpatialDebug
import Verif.Props.LocbDebug
import Verif.Props.SpatialSpawner
import Verif.Props.Mbvh
/- Property C87: a build with debug assertions behaves like a release build. -/
namespace Rtbvh
variable {F : Type} [FloatOps F]

/-- C87, binned builder: on every input the builder accepts, under every thread schedule (finished or not), the build with
debug assertions does what the build without does. -/
theorem C87_binned_debug (b : Builder F) (order : List Nat) (h : b.Legal order) (ks : List Nat) :
    b.constructBinnedSahD order ks = b.constructBinnedSah order ks := by
  unfold Builder.constructBinnedSahD Builder.constructBinnedSah
  rw [Builder.check_legal h]
  simp only
  congr 1
  obtain ⟨T, P, _, _, hI⟩ := binnedInit_inv (Builder.setting h)
    (by have := h.small; omega)
  have := binnedExecD_eq (ctx := b.ctx order) (by simp [Builder.ctx, BinnedCtx.new, spawnerMaxDepth]) ks hI
  unfold Builder.ctx at this
  unfold binnedBuildD binnedBuild
  rw [this]
  cases binnedExec (BinnedCtx.new (b.boxes order) (b.primitives.map Prim.center) b.primitivesPerLeaf) ks
    (binnedInit (BinnedCtx.new (b.boxes order) (b.primitives.map Prim.center) b.primitivesPerLeaf)) <;> rfl

/-- C87, spatial builder: on every input the builder accepts (any primitives, any `split` method, any behaviour of the
library sort), under every thread schedule, the build with debug assertions and checked subtractions does what the build
without does: it returns the same tree, or has the same fault at the same step. -/
theorem C87_spatial_debug (b : Builder F) (split : Nat → Fin 3 → F → Aabb F × Aabb F)
    (sort : Fin 3 → List (Ref F) → Option (List (Ref F))) (order ks : List Nat) (h : b.LegalSpatial order sort) :
    b.constructSpatialSahD split sort order ks = b.constructSpatialSah split sort order ks := by
  obtain ⟨hset, _, hcon⟩ := h.setting (split := split)
  rw [hcon]
  unfold Builder.constructSpatialSahD
  rw [Builder.check_legal h.toLegal]
  simp only
  congr 1
  show spatialBuildD (b.spatialCtx split sort order) ks = _
  have := spatialExecD_eq hset.sorts hset.prims
    (show (b.spatialCtx split sort order).maxDepth ≤ spawnerMaxDepth by
      simp [Builder.spatialCtx, SpatialCtx.new, spawnerMaxDepth]) ks (spatialInit_inv hset) (by rfl)
  unfold spatialBuildD spatialBuild
  rw [this]
  cases spatialExec (b.spatialCtx split sort order) (spatialThreshold (b.spatialCtx split sort order)) ks
    (spatialInit (b.spatialCtx split sort order)) <;> rfl

/-- C87, task spawner: in every reachable state of a binned or spatial build run by the spawner's threads, a turn with
the assertion on the depth of the popped task is a turn without. -/
theorem C87_spawner_debug :
    (∀ (b : Builder F) (order : List Nat) (_ : b.Legal order) (threshold k : Nat)
      (s : Spawn (BinnedShared F) (BinnedTask × TaskPhase)),
      SpawnRun (binnedRun (b.ctx order)) binnedSize threshold k (binnedSpawn (b.ctx order)) s →
      ∀ i, spawnTurnD (binnedRun (b.ctx order)) binnedSize (fun a => a.1.depth) threshold 64 s i =
        spawnTurn (binnedRun (b.ctx order)) binnedSize threshold s i) ∧
    (∀ (b : Builder F) (split : Nat → Fin 3 → F → Aabb F × Aabb F)
      (sort : Fin 3 → List (Ref F) → Option (List (Ref F))) (order : List Nat) (_ : b.LegalSpatial order sort)
      (threshold k : Nat) (s : Spawn (SpatialShared F) (SpatialTask × SpatialPhase)) (ctx : SpatialCtx F),
      ctx = SpatialCtx.new (b.boxes order) (b.primitives.zipIdx.map fun (p, i) => ⟨p.center, split i⟩)
        b.primitivesPerLeaf sort →
      SpawnRun (spatialRun ctx (spatialThreshold ctx)) spatialSize threshold k (spatialSpawn ctx) s →
      ∀ i, spawnTurnD (spatialRun ctx (spatialThreshold ctx)) spatialSize (fun a => a.1.depth) threshold 64 s i =
        spawnTurn (spatialRun ctx (spatialThreshold ctx)) spatialSize threshold s i) := by
  have pool : ∀ {S A : Type} {s : Spawn S A} {w : Worker A} {a : A}, w ∈ s.workers → a ∈ w.stack → a ∈ poolOf s.workers := by
    intro S A s w a hw ha
    exact List.mem_flatMap.2 ⟨w, hw, List.mem_append_right _ ha⟩
  refine ⟨?_, ?_⟩
  · intro b order h threshold k s hr i
    obtain ⟨_, m, hm, _⟩ := spawn_refines hr (Joins.init _)
    have hpool0 : (poolOf (binnedSpawn (b.ctx order)).workers) = (binnedInit (b.ctx order)).pending := by
      simp [binnedSpawn, Spawn.init, poolOf, Worker.start, Worker.items, binnedInit]
    obtain ⟨ks, u, _, _, e3, _, e5⟩ := binned_pool hm (binnedInit (b.ctx order)) rfl (by rw [hpool0])
    obtain ⟨T, P, _, _, hI⟩ := binnedInit_inv (Builder.setting h) (by have := h.small; omega)
    obtain ⟨u', r, e3', hI', _⟩ := hI.exec ks
    rw [e3] at e3'
    cases e3'
    obtain ⟨⟨fp, ts, hD, _, _, _, hts⟩, _, _⟩ := hI'
    refine spawnTurnD_eq (fun w hw a ha => ?_) i
    exact hD.task_depth a (hts.mem_iff.2 (e5.subset (pool hw ha)))
  · intro b split sort order h threshold k s ctx hctx hr i
    obtain ⟨_, m, hm, _⟩ := spawn_refines hr (Joins.init _)
    have hpool0 : (poolOf (spatialSpawn ctx).workers) = (spatialInit ctx).pending := by
      simp [spatialSpawn, Spawn.init, poolOf, Worker.start, Worker.items, spatialInit]
    obtain ⟨ks, u, _, _, e3, _, e5⟩ := spatial_pool hm (spatialInit ctx) rfl (by rw [hpool0])
    obtain ⟨hset, _, _⟩ := h.setting (split := split)
    rw [show b.spatialCtx split sort order = ctx from hctx.symm] at hset
    rcases (spatialInit_inv hset).exec hset.sorts hset.prims ks with ⟨f, e, _⟩ | ⟨u', r, e, hI', _⟩
    · rw [e3] at e; cases e
    rw [e3] at e
    cases e
    obtain ⟨⟨fp, rg, ts, w, hD, _, _, _, _, _, _, hts⟩, _, _, _⟩ := hI'
    refine spawnTurnD_eq (fun w hw a ha => ?_) i
    have := (hD.task_facts a (hts.mem_iff.2 (e5.subset (pool hw ha)))).1
    rw [hctx] at this
    exact this

/-- C87, `Mbvh::construct_from_raw`: the only difference between a debug and a release build is the empty node list,
where the debug build panics and the release build returns an empty structure. -/
theorem C87_from_raw_debug (fuel : Nat) (nodes : List (BvhNode F)) (ids : List Nat) :
    (nodes ≠ [] → Mbvh.constructFromRawD fuel nodes ids = Mbvh.constructFromRaw fuel nodes ids) ∧
    Mbvh.constructFromRawD fuel ([] : List (BvhNode F)) ids = none ∧
    Mbvh.constructFromRaw fuel ([] : List (BvhNode F)) ids = some { nodes := [], mNodes := [], primIndices := ids } := by
  refine ⟨fun h => ?_, rfl, rfl⟩
  cases nodes with
  | nil => exact absurd rfl h
  | cons n l => rfl

/-- Non-vacuity: a legal scene of the spatial builder with straddling triangles. -/
example : (triScene keptScene).LegalSpatial [0, 1, 2] refSort := triScene_legal _ _ (by decide) (by decide) (by decide) (by decide +kernel)

/-- Non-vacuity: a legal input of the binned builder. -/
example : demoBuilder.Legal [0, 1, 2, 3] := demo_legal

end Rtbvh
