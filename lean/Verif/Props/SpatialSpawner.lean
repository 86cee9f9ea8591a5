import Verif.Model.SpatialSpawner
import Verif.Props.Spawner
import Verif.Props.Fine
import Verif.Proofs.SpatialEnds
/- Property C50 for the spatial builder. -/
namespace Rtbvh
variable {F : Type} [FloatOps F]

theorem spatialTaskStep_new {ctx : SpatialCtx F} {thr : F} {nodes : List (BvhNode F)} {c rc : Nat} {ps : List Nat}
    {v : RefView F} {t : SpatialTask} {ph : SpatialPhase} {e : SpatialEffect F}
    (h : spatialTaskStep ctx thr nodes c rc ps v t ph = .ok e) : e.new.length ≤ 2 := by
  unfold spatialTaskStep at h
  repeat' split at h
  all_goals first
    | (cases h; done)
    | (injection h with h; subst h; simp)
    | (simp only at h
       repeat' split at h
       all_goals first
         | (cases h; done)
         | (injection h with h; subst h; simp))

/-- Steps of pending tasks in any order are a legal schedule of the spatial build. -/
theorem spatial_pool {ctx : SpatialCtx F} {thr : F} {m : Nat} {sh sh' : SpatialShared F}
    {l l' : List (SpatialTask × SpatialPhase)} (h : PoolRun (spatialRun ctx thr) m sh l sh' l') (s0 : SpatialState F)
    (h0 : sh = ⟨s0.nodes, s0.counter, s0.refs, s0.refCount, s0.prims⟩) (hl : l.Perm s0.pending) :
    ∃ ks s, ks.length = m ∧ SpatialLegal ctx thr ks s0 ∧ spatialExec ctx thr ks s0 = .ok s ∧
      sh' = ⟨s.nodes, s.counter, s.refs, s.refCount, s.prims⟩ ∧ l'.Perm s.pending := by
  induction h with
  | refl hp => exact ⟨[], s0, rfl, trivial, rfl, h0, hp.trans hl⟩
  | step h1 h2 h3 h4 ih =>
    rename_i a R r
    obtain ⟨ks, s, e1, e2, e3, e4, e5⟩ := ih h0 hl
    have hmem : a ∈ s.pending := (h2.symm.trans e5).subset (by simp)
    obtain ⟨i, hi, hia⟩ := List.mem_iff_getElem.1 hmem
    have hget : s.pending[i]? = some a := by rw [← hia]; exact List.getElem?_eq_getElem hi
    obtain ⟨t, ph⟩ := a
    have hrest : (s.pending.eraseIdx i).Perm R := by
      have p1 : s.pending.Perm ((t, ph) :: s.pending.eraseIdx i) := by
        rw [← hia]; exact (List.getElem_cons_eraseIdx_perm hi).symm
      exact (List.perm_cons _).1 (p1.symm.trans (e5.symm.trans h2))
    subst e4
    unfold spatialRun at h3
    simp only at h3
    split at h3
    · cases h3
    rename_i e hstep
    have hst : spatialStep ctx thr s i = .ok (SpatialState.mk e.nodes e.counter (s.refs.write t.begin e.view) e.refCount
        e.prims (s.pending.eraseIdx i ++ e.new)) := by
      simp only [spatialStep, hget, hstep]
    refine ⟨ks ++ [i], _, by simp [e1], spatialLegal_snoc e2 e3 hi, (spatialExec_snoc e3).trans hst, ?_, ?_⟩
    · split at h3 <;> cases h3 <;> rfl
    · refine h4.trans ?_
      have hlen := spatialTaskStep_new hstep
      have : r.toList = e.new := by
        split at h3
        · rename_i hn; cases h3; rw [hn]; rfl
        · rename_i hn; cases h3; rw [hn]; rfl
        · rename_i x y z hn
          cases h3
          rw [hn] at hlen ⊢
          simp at hlen
          simp [Ran.toList, hlen]
      rw [this]
      exact List.perm_append_comm.trans (hrest.symm.append_right _)

theorem spatial_steps_bound {ctx : SpatialCtx F} {N : Nat} (hs : SpatialSetting ctx N) {ks : List Nat}
    (hl : SpatialLegal ctx (spatialThreshold ctx) ks (spatialInit ctx)) {s : SpatialState F}
    (e : spatialExec ctx (spatialThreshold ctx) ks (spatialInit ctx) = .ok s) :
    ks.length + s.pending.length ≤ 2 * (2 * maxReferenceCount ctx + 1) := by
  obtain ⟨h1, h2⟩ := (spatialInit_inv hs).steps hs.sorts hs.prims ks hl e
  have h0 : taskWeights (spatialInit ctx).pending = 2 := by simp [spatialInit, taskWeights, SpatialPhase.weight]
  have hc : (spatialInit ctx).counter = 1 := rfl
  have hp : s.pending.length ≤ taskWeights s.pending := by
    generalize s.pending = l
    induction l with
    | nil => simp
    | cons x l ih =>
      have : 1 ≤ x.2.weight := by cases x.2 <;> simp [SpatialPhase.weight]
      simp only [taskWeights, List.map_cons, List.sum_cons, List.length_cons] at ih ⊢
      omega
  omega

/-- C61, the part that holds about ending: no spatial build goes on for ever, whatever the scene, the provided `split`, the
sort and the schedule, be the outcome a BVH or a fault.  A schedule without a fault has at most `2(2m + 1)` steps, `m` being
the limit on references; one that has not led to a BVH has fewer and can go on. -/
theorem C61_ends_partial (b : Builder F) (split : Nat → Fin 3 → F → Aabb F × Aabb F)
    (sort : Fin 3 → List (Ref F) → Option (List (Ref F))) (order : List Nat) (h : b.LegalSpatial order sort)
    (ks : List Nat) (hk : b.SpatialSchedule split sort order ks) (res : Option (Bvh F))
    (e : b.constructSpatialSah split sort order ks = .ok (.ok res)) :
    ks.length ≤ 2 * (2 * referenceLimit F b.primitives.length + 1) ∧
    (res = none → ks.length < 2 * (2 * referenceLimit F b.primitives.length + 1) ∧
      b.SpatialSchedule split sort order (ks ++ [0])) := by
  obtain ⟨hset, hmax, hcon⟩ := h.setting (split := split)
  rw [hcon] at e
  have hl : SpatialLegal (b.spatialCtx split sort order) (spatialThreshold (b.spatialCtx split sort order)) ks
    (spatialInit (b.spatialCtx split sort order)) := hk
  have hg : ¬ ((b.spatialCtx split sort order).prims.length ≠ (b.spatialCtx split sort order).aabbs.length ∨
      (b.spatialCtx split sort order).prims = [] ∨ (b.spatialCtx split sort order).aabbs = []) := by
    have hpos := hset.pos
    rw [hset.prims, hset.aabbs]
    simp only [ne_eq, not_true_eq_false, false_or, not_or]
    exact ⟨fun hc => by have := hset.prims; rw [hc] at this; simp at this; omega,
      fun hc => by have := hset.aabbs; rw [hc] at this; simp at this; omega⟩
  unfold spatialBuild at e
  rw [if_neg hg] at e
  split at e
  · cases e
  rename_i s hs
  have hb := spatial_steps_bound hset hl hs
  rw [hmax] at hb
  refine ⟨by omega, fun hr => ?_⟩
  subst hr
  split at e
  · cases e
  rename_i hp
  have hpos : 0 < s.pending.length := List.length_pos_iff.2 hp
  exact ⟨by omega, spatialLegal_snoc hl hs hpos⟩

/-- C50 for the spatial builder.  Whatever the interleaving of the spawner's threads:
* what the threads have done is what some schedule in the sense of C59-C61 does: if a task faults then that schedule
  followed by one more step faults, and when `TaskSpawner::run` returns, the build returns what that schedule returns;
* there is no deadlock: until `run` returns some thread can make a turn;
* if any schedule leads to a BVH with `k` nodes then no thread ever faults and the run is over after `10k + 2` turns;
* in any case, faults or not, the run is over after `10(2m + 1) + 2` turns, `m` being the limit on references. -/
theorem C50_spatial_spawner (b : Builder F) (split : Nat → Fin 3 → F → Aabb F × Aabb F)
    (sort : Fin 3 → List (Ref F) → Option (List (Ref F))) (order : List Nat) (h : b.LegalSpatial order sort)
    (threshold k : Nat) (s : Spawn (SpatialShared F) (SpatialTask × SpatialPhase)) (ctx : SpatialCtx F)
    (hctx : ctx = SpatialCtx.new (b.boxes order) (b.primitives.zipIdx.map fun (p, i) => ⟨p.center, split i⟩)
      b.primitivesPerLeaf sort)
    (hr : SpawnRun (spatialRun ctx (spatialThreshold ctx)) spatialSize threshold k (spatialSpawn ctx) s) :
    (∀ i, spawnTurn (spatialRun ctx (spatialThreshold ctx)) spatialSize threshold s i = .panic →
      ∃ ks f, b.SpatialSchedule split sort order ks ∧ b.constructSpatialSah split sort order ks = .ok (.error f)) ∧
    (s.Returned → ∃ ks bvh, b.SpatialSchedule split sort order ks ∧
      b.constructSpatialSah split sort order ks = .ok (.ok (some bvh)) ∧
      bvh = spatialFinish { nodes := s.shared.nodes, counter := s.shared.counter, refs := s.shared.refs
                            refCount := s.shared.refCount, prims := s.shared.prims, pending := [] }) ∧
    (¬ s.Returned → ∃ i, spawnTurn (spatialRun ctx (spatialThreshold ctx)) spatialSize threshold s i ≠ .blocked) ∧
    (∀ ks bvh, b.constructSpatialSah split sort order ks = .ok (.ok (some bvh)) →
      (∀ i, spawnTurn (spatialRun ctx (spatialThreshold ctx)) spatialSize threshold s i ≠ .panic) ∧
      k ≤ 10 * bvh.nodes.length + 2) ∧
    k ≤ 10 * (2 * referenceLimit F b.primitives.length + 1) + 2 := by
  obtain ⟨J, m, hm, hk⟩ := spawn_refines hr (Joins.init _)
  obtain ⟨hset, hmax, hcon⟩ := h.setting (split := split)
  rw [show b.spatialCtx split sort order = ctx from hctx.symm] at hset hmax hcon
  have hsched : ∀ ks, SpatialLegal ctx (spatialThreshold ctx) ks (spatialInit ctx) → b.SpatialSchedule split sort order ks := by
    intro ks hl; unfold Builder.SpatialSchedule; rw [← hctx]; exact hl
  have hpool0 : (poolOf (spatialSpawn ctx).workers) = (spatialInit ctx).pending := by
    simp [spatialSpawn, Spawn.init, poolOf, Worker.start, Worker.items, spatialInit]
  obtain ⟨ks, u, e1, e2, e3, e4, e5⟩ := spatial_pool hm (spatialInit ctx) rfl (by rw [hpool0])
  have hguard : ¬ (ctx.prims.length ≠ ctx.aabbs.length ∨ ctx.prims = [] ∨ ctx.aabbs = []) := by
    have hlen := Builder.boxes_length h.toLegal
    have hne := h.nonempty
    rw [hctx]
    simp only [SpatialCtx.new, List.length_map, List.length_zipIdx, hlen, ne_eq, not_true_eq_false, false_or, not_or]
    refine ⟨fun hc => hne ?_, fun hc => ?_⟩
    · have := congrArg List.length hc
      simpa using this
    · rw [hc] at hlen
      exact hne (List.length_eq_zero_iff.1 hlen.symm)
  have hpanic : ∀ i, spawnTurn (spatialRun ctx (spatialThreshold ctx)) spatialSize threshold s i = .panic →
      ∃ ks f, b.SpatialSchedule split sort order ks ∧ b.constructSpatialSah split sort order ks = .ok (.error f) := by
    intro i hpan
    obtain ⟨a, hmem, ha⟩ := panic_item hpan
    obtain ⟨j, hj, hja⟩ := List.mem_iff_getElem.1 (e5.subset hmem)
    have hget : u.pending[j]? = some a := by rw [← hja]; exact List.getElem?_eq_getElem hj
    obtain ⟨f, hstep⟩ : ∃ f, spatialStep ctx (spatialThreshold ctx) u j = .error f := by
      simp only [spatialStep, hget]
      rw [e4] at ha
      simp only [spatialRun] at ha
      split at ha
      · rename_i f e; exact ⟨f, by rw [e]⟩
      · split at ha <;> cases ha
    refine ⟨ks ++ [j], f, hsched _ (spatialLegal_snoc e2 e3 hj), ?_⟩
    rw [hcon]
    unfold spatialBuild
    rw [if_neg hguard, spatialExec_snoc e3, hstep]
  refine ⟨hpanic, ?_, fun hret => J.progress _ spatialSize threshold hret, ?_, ?_⟩
  · rintro ⟨w, hw, hd⟩
    have hempty := J.returned hw hd
    rw [hempty] at e5
    have hp : u.pending = [] := e5.symm.eq_nil
    refine ⟨ks, spatialFinish u, hsched _ e2, ?_, ?_⟩
    · rw [hcon]
      unfold spatialBuild
      rw [if_neg hguard, e3]
      simp [hp]
    · rw [e4]; rfl
  · intro ks' bvh hb
    obtain ⟨c1, c2, _⟩ := C60_spatial_schedule_independent b split sort order ks' h bvh hb
    refine ⟨fun i hpan => ?_, ?_⟩
    · obtain ⟨ks₁, f, _, hf⟩ := hpanic i hpan
      exact c1 _ _ hf
    · have := (c2 ks (hsched _ e2)).1
      have : todoOf (spatialSpawn ctx).workers = 2 := by
        simp [spatialSpawn, Spawn.init, todoOf, Worker.start, Worker.todo]
      omega
  · have := spatial_steps_bound hset e2 e3
    rw [hmax] at this
    have : todoOf (spatialSpawn ctx).workers = 2 := by
      simp [spatialSpawn, Spawn.init, todoOf, Worker.start, Worker.todo]
    omega

/-- Is the build under way, without a BVH and without a fault? -/
def underWay (r : Except BuildError (Except Fault (Option (Bvh F32)))) : Bool :=
  match r with
  | .ok (.ok none) => true
  | _ => false

theorem underWay_eq {r : Except BuildError (Except Fault (Option (Bvh F32)))} (h : underWay r = true) : r = .ok (.ok none) := by
  unfold underWay at h
  split at h
  · rfl
  · cases h

theorem threeSteps (P : List Nat → Prop) (Q : List Nat → Bool) (h0 : P []) (next : ∀ ks, P ks → Q ks = true → P (ks ++ [0]))
    (q0 : Q [] = true) (q1 : Q [0] = true) (q2 : Q [0, 0] = true) : P [0, 0, 0] :=
  next [0, 0] (next [0] (next [] h0 q0) q1) q2

def panicRun (ks : List Nat) : Except BuildError (Except Fault (Option (Bvh F32))) :=
  (triScene panicScene).constructSpatialSah (triSplit panicScene) refSort (List.range 5) ks
theorem panicRun_0 : underWay (panicRun []) = true := by decide +kernel
theorem panicRun_1 : underWay (panicRun [0]) = true := by decide +kernel
theorem panicRun_2 : underWay (panicRun [0, 0]) = true := by decide +kernel
theorem panicRun_3 : underWay (panicRun [0, 0, 0]) = true := by decide +kernel

/-- The hypotheses of `C61_ends_partial` are met by a build under way that no schedule leads to a BVH. -/
example : (triScene panicScene).LegalSpatial (List.range 5) refSort ∧
    (triScene panicScene).SpatialSchedule (triSplit panicScene) refSort (List.range 5) [0, 0, 0] ∧
    (triScene panicScene).constructSpatialSah (triSplit panicScene) refSort (List.range 5) [0, 0, 0] = .ok (.ok none) :=
  ⟨C61_spatial_panics.1,
    threeSteps ((triScene panicScene).SpatialSchedule (triSplit panicScene) refSort (List.range 5))
      (fun ks => underWay (panicRun ks)) trivial
      (fun ks h hu => ((C61_ends_partial _ _ _ _ C61_spatial_panics.1 ks h none (underWay_eq hu)).2 rfl).2)
      panicRun_0 panicRun_1 panicRun_2,
    underWay_eq panicRun_3⟩

/-- Non-vacuity: a legal scene, every forked task on its own thread: three threads, 20 turns, the run returns and leaves
the id array of a build. -/
example : (triScene keptScene).LegalSpatial [0, 1, 2] refSort ∧
    ∃ s, SpawnRun (spatialRun ((triScene keptScene).spatialCtx (triSplit keptScene) refSort [0, 1, 2])
        (spatialThreshold ((triScene keptScene).spatialCtx (triSplit keptScene) refSort [0, 1, 2]))) spatialSize 0 20
        (spatialSpawn ((triScene keptScene).spatialCtx (triSplit keptScene) refSort [0, 1, 2])) s ∧
      s.Returned ∧ s.workers.length = 3 ∧ s.shared.prims = [0, 2, 1, 0, 0] := by
  refine ⟨triScene_legal _ _ (by decide) (by decide) (by decide) (by decide +kernel), ?_⟩
  have key : ((turns (spatialRun ((triScene keptScene).spatialCtx (triSplit keptScene) refSort [0, 1, 2])
      (spatialThreshold ((triScene keptScene).spatialCtx (triSplit keptScene) refSort [0, 1, 2]))) spatialSize 0
      [0, 0, 0, 0, 0, 0, 1, 1, 1, 1, 1, 1, 2, 2, 2, 2, 1, 1, 0, 0]
      (spatialSpawn ((triScene keptScene).spatialCtx (triSplit keptScene) refSort [0, 1, 2]))).map
        fun s => (s.workers[0]?.map (·.done), s.workers.length, s.shared.prims)) = some (some true, 3, [0, 2, 1, 0, 0]) := by
    decide +kernel
  obtain ⟨s, hs, e⟩ := Option.map_eq_some_iff.1 key
  simp only [Prod.mk.injEq] at e
  obtain ⟨w, hw, hd⟩ := Option.map_eq_some_iff.1 e.1
  exact ⟨s, turns_run _ (.refl _) hs, ⟨w, hw, hd⟩, e.2.1, e.2.2⟩

end Rtbvh
