import Verif.Proofs.UnwindSpatial
import Verif.Props.Spawner
import Verif.Props.SpatialSpawner
/- C105: builds in which user code panics. -/
namespace Rtbvh
variable {S A : Type}

theorem outcome_none {s : Unwind S A} : s.outcome = none ↔ ¬ s.AllEnded := by
  unfold Unwind.outcome Unwind.AllEnded
  by_cases h : s.workers.any (fun w => w.fate = .running) = true
  · rw [if_pos h]
    simp only [true_iff]
    simpa using h
  · rw [if_neg h]
    constructor
    · intro e; cases e
    · intro e; exact absurd (by simpa using e) h

theorem outcome_some {s : Unwind S A} {c : Nat} (U : Unwound s c) {b : Bool} (h : s.outcome = some b) :
    s.AllEnded ∧ (b = true ↔ c = 0) := by
  have he : s.AllEnded := by
    by_contra hc
    rw [outcome_none.2 hc] at h
    cases h
  refine ⟨he, ?_⟩
  unfold Unwind.outcome at h
  split at h
  · cases h
  have hb : b = true ↔ ∀ (i : Nat) (w : UWorker A), s.workers[i]? = some w → w.fate = .panicked → i ≠ 0 ∧ i ∈ s.taken := by
    rw [← Option.some.inj h, Bool.not_eq_true', List.any_eq_false]
    constructor
    · intro hh i w hw hp
      have := hh (w, i) (List.mem_zipIdx_iff_getElem?.2 hw)
      simpa [hp, not_or] using this
    · rintro hh ⟨w, i⟩ hm
      have hw := List.mem_zipIdx_iff_getElem?.1 hm
      by_cases hp : w.fate = .panicked
      · simpa [hp, not_or] using hh i w hw hp
      · simp [hp]
  rw [hb]
  constructor
  · intro hh
    by_contra hc
    have hno : ∀ n (i : Nat) (w : UWorker A), i ≤ n → s.workers[i]? = some w → w.fate ≠ .panicked := by
      intro n
      induction n with
      | zero =>
        intro i w hi hw hp
        exact (hh i w hw hp).1 (by omega)
      | succ n ih =>
        intro i w hi hw hp
        obtain ⟨j, v, hj, hv, hvp⟩ := U.blame i w hw hp (hh i w hw hp).2
        exact ih j v (by omega) hv hvp
    obtain ⟨i, w, hw, hp⟩ := U.count.1 (by omega)
    exact hno i i w (Nat.le_refl _) hw hp
  · intro hc i w hw hp
    have := U.count.2 ⟨i, w, hw, hp⟩
    omega

/-- C105: tasks that panic.  Whatever the tasks do, whatever turns the threads take, wherever the user's code panics and
whatever memory it leaves: until `TaskSpawner::run` has an outcome some thread can take a turn; at its outcome no thread is
left; it returns if no task has panicked and panics if one has; and without panics this is the spawner of C50. -/
theorem C105_spawner (run : S → A → Option (S × Ran A)) (size : A → Nat) (threshold : Nat) (sh : S) (a : A) (k c : Nat)
    (s : Unwind S A) (h : UnwindRun run size threshold (fun _ _ _ => True) k c (Unwind.init sh a) s) :
    (s.outcome = none → ∃ i s' p, unwindTurn run size threshold s i none = some (s', p)) ∧
    (∀ b, s.outcome = some b → s.AllEnded ∧ (b = true ↔ c = 0)) ∧
    (c = 0 → SpawnRun run size threshold k (Spawn.init sh a) s.toSpawn) := by
  have U := h.unwound (Unwound.init sh a)
  exact ⟨fun h => U.progress (outcome_none.1 h), fun b hb => outcome_some U hb,
    fun hc => (h.calm (Unwound.init sh a) hc).1⟩

/-- C105: tasks that get smaller (what a task leaves to do weighs less than the task) bound the number of turns, panics
included: so `TaskSpawner::run` always comes to its outcome. -/
theorem C105_ends (run : S → A → Option (S × Ran A)) (size : A → Nat) (threshold : Nat) (weight : A → Nat)
    (hw : ∀ sh a sh' r, run sh a = some (sh', r) →
      match r with
      | .finished => 0 < weight a
      | .goesOn a' => weight a' < weight a
      | .forks x y => weight x + weight y < weight a)
    (sh : S) (a : A) (k c : Nat) (s : Unwind S A)
    (h : UnwindRun run size threshold (fun _ _ _ => True) k c (Unwind.init sh a) s) : k ≤ 5 * weight a + 2 := by
  have := h.bound weight (fun sh a sh' r e => by
    have := hw sh a sh' r e
    cases r <;> simpa [Ran.toList] using this)
  simp [Unwind.init, Unwind.toSpawn, UWorker.start, todoOf, poolOf, Worker.items, Worker.todo] at this
  omega

section
variable {F : Type} [FloatOps F]

/-- The pool of tasks of a binned build: none panics by itself, and only so many steps are possible. -/
theorem binned_pool_safe {b : Builder F} {order : List Nat} (h : b.Legal order) {m : Nat} {sh : BinnedShared F}
    {l : List (BinnedTask × TaskPhase)}
    (hm : PoolRun (binnedRun (b.ctx order)) m (binnedSpawn (b.ctx order)).shared (poolOf (binnedSpawn (b.ctx order)).workers) sh l) :
    m ≤ 3 * b.primitives.length - 2 ∧ ∀ a ∈ l, binnedRun (b.ctx order) sh a ≠ none := by
  have hctx : (b.ctx order).aabbs.length = b.primitives.length := by
    simpa [Builder.ctx, BinnedCtx.new] using Builder.boxes_length h
  have hpool0 : (poolOf (binnedSpawn (b.ctx order)).workers) = (binnedInit (b.ctx order)).pending := by
    simp [binnedSpawn, Spawn.init, poolOf, Worker.start, Worker.items, binnedInit]
  obtain ⟨ks, u, e1, e2, e3, e4, e5⟩ := binned_pool hm (binnedInit (b.ctx order)) rfl (by rw [hpool0])
  obtain ⟨tot, ⟨N, hN, hsch⟩, _⟩ := C02_binned_completes b order h
  have hle := (hsch ks e2).1
  refine ⟨by clear hsch; omega, fun a hmem ha => ?_⟩
  obtain ⟨j, hj, hja⟩ := List.mem_iff_getElem.1 (e5.subset hmem)
  have hget : u.pending[j]? = some a := by rw [← hja]; exact List.getElem?_eq_getElem hj
  have hstep : binnedStep (b.ctx order) u j = none := by
    simp only [binnedStep, hget]
    rw [e4] at ha
    simp only [binnedRun] at ha
    split at ha
    · rename_i e; rw [e]
    · split at ha <;> cases ha
  obtain ⟨r, er⟩ := tot (ks ++ [j])
  rw [Builder.construct_eq h] at er
  unfold binnedBuild at er
  rw [exec_append e3, hstep] at er
  simp only [Except.ok.injEq] at er
  split at er
  · rename_i hbad
    rcases hbad with hbad | hbad | hbad
    · exact hbad (by rw [hctx]; simp [Builder.ctx, BinnedCtx.new])
    · exact h.nonempty (by simpa [Builder.ctx, BinnedCtx.new] using hbad)
    · rw [hbad] at hctx; simp at hctx; exact h.nonempty (by simpa using hctx.symm)
  · cases er

/-- C105, binned builder: whatever the interleaving, wherever `center()` panics and whatever the panicking task leaves in its
own node and its own part of the index array (half-done swaps of the partition), the build comes to its outcome within
`15n - 8` turns, never deadlocks, no thread outlives it; no task panics by itself, also after other tasks were lost; and
the build returns if and only if no `center()` panicked, with the result of a complete schedule in the sense of C02-C05. -/
theorem C105_binned (b : Builder F) (order : List Nat) (h : b.Legal order) (threshold k c : Nat)
    (s : Unwind (BinnedShared F) (BinnedTask × TaskPhase))
    (hr : UnwindRun (binnedRun (b.ctx order)) binnedSize threshold BinnedSpoils k c
      (Unwind.init (binnedSpawn (b.ctx order)).shared
        ({ node := 0, begin := 0, stop := (b.ctx order).aabbs.length, depth := 0 }, .ready)) s) :
    k ≤ 15 * b.primitives.length - 8 ∧
    (∀ i s' p, unwindTurn (binnedRun (b.ctx order)) binnedSize threshold s i none = some (s', p) → p = false) ∧
    (s.outcome = none → ∃ i s', unwindTurn (binnedRun (b.ctx order)) binnedSize threshold s i none = some (s', false)) ∧
    (∀ r, s.outcome = some r → s.AllEnded ∧ (r = true ↔ c = 0)) ∧
    (s.outcome = some true → ∃ ks bvh, b.Schedule order ks ∧ b.constructBinnedSah order ks = .ok (some (some bvh)) ∧
      bvh = binnedFinish { nodes := s.shared.1, counter := s.shared.2.1, prims := s.shared.2.2, pending := [] }) := by
  have hpos : 0 < b.primitives.length := List.length_pos_iff.2 h.nonempty
  have U := hr.unwound (Unwound.init _ _)
  have hset := Builder.setting h
  have hn : b.primitives.length ≤ 2 ^ 32 := Nat.le_trans h.small (by decide)
  obtain ⟨m, D, x, hm, hsp, hk⟩ := binned_spoiled_pool hset hn rfl
    (by simp [Unwind.init, Unwind.toSpawn, UWorker.start, binnedSpawn, Spawn.init, Worker.start]) hr
  obtain ⟨hle, hsafe⟩ := binned_pool_safe h hm
  obtain ⟨hpw, hfa⟩ := pool_facts hset hn hm
  have hself : ∀ i s' p, unwindTurn (binnedRun (b.ctx order)) binnedSize threshold s i none = some (s', p) → p = false := by
    intro i s' p ht
    obtain ⟨w, hw, hf, hh⟩ := unwind_cases ht
    rcases hh with ⟨hp, -⟩ | ⟨-, ⟨-, -, ⟨sh, _, e, -⟩ | ⟨-, -, a, hc, e⟩⟩ | ⟨hp, -⟩⟩
    · exact hp
    · cases e
    · have hmem : a ∈ poolOf s.toSpawn.workers := by
        unfold poolOf
        rw [List.mem_flatMap]
        exact ⟨_, List.mem_of_getElem? (toSpawn_get hw), by simp [Worker.items, hc]⟩
      obtain ⟨fp, hfact⟩ := hfa a (List.mem_append_left _ hmem)
      exact absurd ((hsp.step (fun d hd => (List.pairwise_append.1 hpw).2.2 a hmem d hd) hfact).1 e)
        (hsafe a (List.mem_append_left _ hmem))
    · exact hp
  refine ⟨?_, hself, fun ho => ?_, fun r hb => outcome_some U hb, fun ho => ?_⟩
  · have : todoOf (binnedSpawn (b.ctx order)).workers = 2 := by
      simp [binnedSpawn, Spawn.init, Worker.start, todoOf, Worker.todo]
    omega
  · obtain ⟨i, s', p, e⟩ := U.progress (run := binnedRun (b.ctx order)) (size := binnedSize) (thr := threshold) (outcome_none.1 ho)
    have := hself i s' p e
    subst this
    exact ⟨i, s', e⟩
  · obtain ⟨hend, hc⟩ := outcome_some U ho
    obtain ⟨hrun, -⟩ := hr.calm (Unwound.init _ _) (hc.1 rfl)
    have := C50_binned_spawner b order h threshold k s.toSpawn hrun
    refine this.2.2.2 ?_
    have h0 := List.getElem?_eq_getElem U.nonempty
    exact ⟨_, toSpawn_get h0, by simpa using hend _ (List.mem_of_getElem? h0)⟩

/-- C105, spatial builder: whatever the interleaving and wherever `split()` panics and whatever the panicking task leaves
in its own node and references, the build comes to its outcome within `10(2m + 1) + 2` turns (`m` the limit on references), never deadlocks, no thread outlives it; it
returns if and only if no task panicked, with what a complete schedule in the sense of C59-C61 returns; and if some schedule
leads to a BVH, no task faults by itself, also after other tasks were lost. -/
theorem C105_spatial (b : Builder F) (split : Nat → Fin 3 → F → Aabb F × Aabb F)
    (sort : Fin 3 → List (Ref F) → Option (List (Ref F))) (order : List Nat) (h : b.LegalSpatial order sort)
    (threshold k c : Nat) (s : Unwind (SpatialShared F) (SpatialTask × SpatialPhase)) (ctx : SpatialCtx F)
    (hctx : ctx = SpatialCtx.new (b.boxes order) (b.primitives.zipIdx.map fun (p, i) => ⟨p.center, split i⟩)
      b.primitivesPerLeaf sort)
    (hr : UnwindRun (spatialRun ctx (spatialThreshold ctx)) spatialSize threshold SpatialSpoils k c
      (Unwind.init (spatialSpawn ctx).shared
        ({ node := 0, begin := 0, stop := ctx.aabbs.length, splitEnd := maxReferenceCount ctx, depth := 0, isSorted := false },
          .ready)) s) :
    k ≤ 10 * (2 * referenceLimit F b.primitives.length + 1) + 2 ∧
    (∀ ks bvh, b.constructSpatialSah split sort order ks = .ok (.ok (some bvh)) →
      ∀ i s' p, unwindTurn (spatialRun ctx (spatialThreshold ctx)) spatialSize threshold s i none = some (s', p) → p = false) ∧
    (s.outcome = none →
      ∃ i s' p, unwindTurn (spatialRun ctx (spatialThreshold ctx)) spatialSize threshold s i none = some (s', p)) ∧
    (∀ r, s.outcome = some r → s.AllEnded ∧ (r = true ↔ c = 0)) ∧
    (s.outcome = some true → ∃ ks bvh, b.SpatialSchedule split sort order ks ∧
      b.constructSpatialSah split sort order ks = .ok (.ok (some bvh)) ∧
      bvh = spatialFinish { nodes := s.shared.nodes, counter := s.shared.counter, refs := s.shared.refs
                            refCount := s.shared.refCount, prims := s.shared.prims, pending := [] }) := by
  have U := hr.unwound (Unwound.init _ _)
  obtain ⟨hset, hmax, hcon⟩ := h.setting (split := split)
  rw [show b.spatialCtx split sort order = ctx from hctx.symm] at hset hmax hcon
  obtain ⟨m, D, x, hm, hsp, hk⟩ := spatial_spoiled_pool hset rfl
    (by simp [Unwind.init, Unwind.toSpawn, UWorker.start, spatialSpawn, Spawn.init, Worker.start]) hr
  obtain ⟨hlen, hpw, hfa⟩ := spatial_pool_facts hset hm
  obtain ⟨ks, u, e1, e2, e3, e4, e5⟩ := spatial_pool hm (spatialInit ctx) rfl (by
    simp [spatialSpawn, Spawn.init, poolOf, Worker.start, Worker.items, spatialInit])
  refine ⟨?_, ?_, fun ho => U.progress (outcome_none.1 ho), fun r hb => outcome_some U hb, fun ho => ?_⟩
  · have h1 := spatial_steps_bound hset e2 e3
    rw [hmax] at h1
    have : todoOf (spatialSpawn ctx).workers = 2 := by
      simp [spatialSpawn, Spawn.init, Worker.start, todoOf, Worker.todo]
    omega
  · intro ks' bvh hb i s' p ht
    obtain ⟨w, hw, hf, hh⟩ := unwind_cases ht
    rcases hh with ⟨hp, -⟩ | ⟨-, ⟨-, -, ⟨sh, _, e, -⟩ | ⟨-, -, a, hc, e⟩⟩ | ⟨hp, -⟩⟩
    · exact hp
    · cases e
    · exfalso
      have hmem0 : a ∈ poolOf s.toSpawn.workers := by
        unfold poolOf
        rw [List.mem_flatMap]
        exact ⟨_, List.mem_of_getElem? (toSpawn_get hw), by simp [Worker.items, hc]⟩
      have hmem : a ∈ poolOf s.toSpawn.workers ++ D := List.mem_append_left _ hmem0
      obtain ⟨f1, f2, f3⟩ := hfa a hmem
      replace e := (hsp.step (fun d hd => (List.pairwise_append.1 hpw).2.2 a hmem0 d hd) hlen f1 f2 f3).1 e
      obtain ⟨j, hj, hja⟩ := List.mem_iff_getElem.1 (e5.subset hmem)
      have hget : u.pending[j]? = some a := by rw [← hja]; exact List.getElem?_eq_getElem hj
      obtain ⟨f, hstep⟩ : ∃ f, spatialStep ctx (spatialThreshold ctx) u j = .error f := by
        simp only [spatialStep, hget]
        rw [e4] at e
        simp only [spatialRun] at e
        split at e
        · rename_i f hf'
          exact ⟨f, by rw [hf']⟩
        · split at e <;> cases e
      have hguard : ¬ (ctx.prims.length ≠ ctx.aabbs.length ∨ ctx.prims = [] ∨ ctx.aabbs = []) := by
        have hpos := hset.pos
        rw [hset.prims, hset.aabbs]
        simp only [ne_eq, not_true_eq_false, false_or, not_or]
        exact ⟨fun hc => by have := hset.prims; rw [hc] at this; simp at this; omega,
          fun hc => by have := hset.aabbs; rw [hc] at this; simp at this; omega⟩
      refine (C60_spatial_schedule_independent b split sort order ks' h bvh hb).1 (ks ++ [j]) f ?_
      rw [hcon]
      unfold spatialBuild
      rw [if_neg hguard, spatialExec_snoc e3, hstep]
    · exact hp
  · obtain ⟨hend, hc⟩ := outcome_some U ho
    obtain ⟨hrun, -⟩ := hr.calm (Unwound.init _ _) (hc.1 rfl)
    have := C50_spatial_spawner b split sort order h threshold k s.toSpawn ctx hctx hrun
    refine this.2.1 ?_
    have h0 := List.getElem?_eq_getElem U.nonempty
    exact ⟨_, toSpawn_get h0, by simpa using hend _ (List.mem_of_getElem? h0)⟩

end

/-! ### The cases occur -/

/-- Turns in the given order: thread number, and whether the user's code panics (leaving the memory `spoil` gives). -/
def uturns {S A : Type} (run : S → A → Option (S × Ran A)) (size : A → Nat) (thr : Nat) (spoil : A → S → S) :
    List (Nat × Bool) → Unwind S A → Option (Unwind S A)
  | [], s => some s
  | (i, x) :: is, s =>
    match unwindTurn run size thr s i
      (if x then ((s.workers[i]?).bind (·.current)).map (fun a => spoil a s.shared) else none) with
    | none => none
    | some (s', _) => uturns run size thr spoil is s'

theorem uturns_run {S A : Type} {run : S → A → Option (S × Ran A)} {size : A → Nat} {thr : Nat} {spoil : A → S → S}
    {allowed : A → S → S → Prop} (hsp : ∀ a x, allowed a x (spoil a x)) (is : List (Nat × Bool))
    {k c : Nat} {s₀ s s' : Unwind S A} (h0 : UnwindRun run size thr allowed k c s₀ s)
    (h : uturns run size thr spoil is s = some s') : ∃ k c, UnwindRun run size thr allowed k c s₀ s' := by
  induction is generalizing k c s with
  | nil => cases h; exact ⟨k, c, h0⟩
  | cons ix is ih =>
    obtain ⟨i, x⟩ := ix
    rw [uturns] at h
    cases e : unwindTurn run size thr s i
      (if x then ((s.workers[i]?).bind (·.current)).map (fun a => spoil a s.shared) else none) with
    | none => rw [e] at h; cases h
    | some r =>
      obtain ⟨s1, p⟩ := r
      rw [e] at h
      refine ih (h0.step i (fun sh w a hs hw hc => ?_) e) h
      cases x with
      | false => cases hs
      | true =>
        rw [if_pos rfl, hw] at hs
        simp only [Option.bind_some, hc, Option.map_some, Option.some.injEq] at hs
        subst hs
        exact hsp a _

/-- A task that panics leaves a wiped node and a wrong id. -/
def spoilBinned (a : BinnedTask × TaskPhase) (x : BinnedShared F32) : BinnedShared F32 :=
  (x.1.set a.1.node BvhNode.new, x.2.1, if a.1.begin < a.1.stop then x.2.2.set a.1.begin 1000 else x.2.2)

theorem spoilBinned_spoils (a : BinnedTask × TaskPhase) (x : BinnedShared F32) : BinnedSpoils a x (spoilBinned a x) := by
  refine ⟨by simp [spoilBinned], fun i hi _ => ?_, rfl, ?_, fun i hi => ?_⟩
  · simp only [spoilBinned]; rw [List.getElem?_set_ne (Ne.symm hi)]
  · simp only [spoilBinned]; split <;> simp
  · simp only [spoilBinned]
    split
    · rw [List.getElem?_set_ne (by omega)]
    · rfl

/-- Three tasks, threshold 0, so the second one gets a thread of its own: it panics there, the caller joins it and panics;
or the caller panics, and the other thread goes on to its end first. -/
example : ∃ s s' : Unwind (List Nat) (TaskTree Nat), ∃ k c k' c',
    UnwindRun treeRun (fun _ => 1) 0 (fun _ _ _ => True) k c (Unwind.init [] demoTree) s ∧ s.outcome = some false ∧
      s.shared = [0, 100, 2] ∧
    UnwindRun treeRun (fun _ => 1) 0 (fun _ _ _ => True) k' c' (Unwind.init [] demoTree) s' ∧ s'.outcome = some false ∧
      s'.shared = [0, 100, 1] ∧ s'.taken = [] := by
  have h1 : (uturns treeRun (fun _ => 1) 0 (fun _ log => log ++ [100]) [(0, false), (0, false), (1, false), (1, true), (0, false), (0, false), (0, false)]
      (Unwind.init [] demoTree)).map (fun s => (s.outcome, s.shared)) = some (some false, [0, 100, 2]) := by decide
  have h2 : (uturns treeRun (fun _ => 1) 0 (fun _ log => log ++ [100]) [(0, false), (0, false), (0, false), (0, true), (1, false), (1, false), (1, false)]
      (Unwind.init [] demoTree)).map (fun s => (s.outcome, s.shared, s.taken)) = some (some false, [0, 100, 1], []) := by decide
  obtain ⟨s, e, hs⟩ := Option.map_eq_some_iff.1 h1
  obtain ⟨s', e', hs'⟩ := Option.map_eq_some_iff.1 h2
  obtain ⟨k, c, hk⟩ := uturns_run (allowed := fun _ _ _ => True) (fun _ _ => trivial) _ (.refl _) e
  obtain ⟨k', c', hk'⟩ := uturns_run (allowed := fun _ _ _ => True) (fun _ _ => trivial) _ (.refl _) e'
  simp only [Prod.mk.injEq] at hs hs'
  exact ⟨s, s', k, c, k', c', hk, hs.1, hs.2, hk', hs'.1, hs'.2.1, hs'.2.2⟩

/-- Tasks given by a tree get smaller. -/
example : ∀ log t log' r, treeRun (α := Nat) log t = some (log', r) →
    match r with
    | .finished => 0 < t.labels.length
    | .goesOn a' => a'.labels.length < t.labels.length
    | .forks x y => x.labels.length + y.labels.length < t.labels.length := by
  intro log t log' r h
  cases t <;> simp only [treeRun, Option.some.injEq, Prod.mk.injEq] at h <;> obtain ⟨-, rfl⟩ := h <;>
    simp [TaskTree.labels]

/-- A binned build in single precision, threshold 0: `center()` panics in the second thread while the caller finishes the
rest and waits; the caller joins it and panics. -/
example : (triScene keptScene).Legal [0, 1, 2] ∧ ∃ s, ∃ k c,
    UnwindRun (binnedRun ((triScene keptScene).ctx [0, 1, 2])) binnedSize 0 BinnedSpoils k c
      (Unwind.init (binnedSpawn ((triScene keptScene).ctx [0, 1, 2])).shared
        ({ node := 0, begin := 0, stop := ((triScene keptScene).ctx [0, 1, 2]).aabbs.length, depth := 0 }, .ready)) s ∧
      s.workers.length = 2 ∧ s.outcome = some false ∧ 1000 ∈ s.shared.2.2 := by
  refine ⟨(triScene_legal _ _ (by decide) (by decide) (by decide) (by decide +kernel)).toLegal, ?_⟩
  have h : (uturns (binnedRun ((triScene keptScene).ctx [0, 1, 2])) binnedSize 0 spoilBinned
      [(0, false), (0, false), (0, false), (0, false), (0, false), (1, false), (1, false), (1, true), (0, false)]
      (Unwind.init (binnedSpawn ((triScene keptScene).ctx [0, 1, 2])).shared
        ({ node := 0, begin := 0, stop := ((triScene keptScene).ctx [0, 1, 2]).aabbs.length, depth := 0 }, .ready))).map
        (fun s => (s.workers.length, s.outcome, decide (1000 ∈ s.shared.2.2))) = some (2, some false, true) := by decide +kernel
  obtain ⟨s, e, hs⟩ := Option.map_eq_some_iff.1 h
  obtain ⟨k, c, hk⟩ := uturns_run spoilBinned_spoils _ (.refl _) e
  simp only [Prod.mk.injEq] at hs
  exact ⟨s, k, c, hk, hs.1, hs.2.1, of_decide_eq_true hs.2.2⟩

/-- A task that panics leaves a wiped node and a wiped reference. -/
def spoilSpatial (a : SpatialTask × SpatialPhase) (x : SpatialShared F32) : SpatialShared F32 :=
  { x with nodes := x.nodes.set a.1.node BvhNode.new
           refs := { x.refs with x := if a.1.begin < a.1.splitEnd then x.refs.x.set a.1.begin ⟨Aabb.new, ⟨F32.nan, F32.nan, F32.nan⟩, 1000⟩ else x.refs.x } }

theorem spoilSpatial_spoils (a : SpatialTask × SpatialPhase) (x : SpatialShared F32) :
    SpatialSpoils a x (spoilSpatial a x) := by
  refine ⟨by simp [spoilSpatial], fun i hi _ => ?_, rfl, rfl, rfl, ⟨?_, rfl, rfl⟩, fun i hi => ⟨?_, rfl, rfl⟩⟩
  · simp only [spoilSpatial]; rw [List.getElem?_set_ne (Ne.symm hi)]
  · simp only [spoilSpatial]; split <;> simp
  · simp only [spoilSpatial]
    split
    · rw [List.getElem?_set_ne (by omega)]
    · rfl

/-- A spatial build of the same triangles: `split()` panics in the second thread. -/
example : (triScene keptScene).LegalSpatial [0, 1, 2] refSort ∧ ∃ s, ∃ k c,
    UnwindRun (spatialRun ((triScene keptScene).spatialCtx (triSplit keptScene) refSort [0, 1, 2])
        (spatialThreshold ((triScene keptScene).spatialCtx (triSplit keptScene) refSort [0, 1, 2]))) spatialSize 0
      SpatialSpoils k c
      (Unwind.init (spatialSpawn ((triScene keptScene).spatialCtx (triSplit keptScene) refSort [0, 1, 2])).shared
        ({ node := 0, begin := 0, stop := ((triScene keptScene).spatialCtx (triSplit keptScene) refSort [0, 1, 2]).aabbs.length
           splitEnd := maxReferenceCount ((triScene keptScene).spatialCtx (triSplit keptScene) refSort [0, 1, 2])
           depth := 0, isSorted := false }, .ready)) s ∧
      s.workers.length = 2 ∧ s.outcome = some false ∧ 1000 ∈ s.shared.refs.x.map Ref.primId := by
  refine ⟨triScene_legal _ _ (by decide) (by decide) (by decide) (by decide +kernel), ?_⟩
  have h : (uturns (spatialRun ((triScene keptScene).spatialCtx (triSplit keptScene) refSort [0, 1, 2])
        (spatialThreshold ((triScene keptScene).spatialCtx (triSplit keptScene) refSort [0, 1, 2]))) spatialSize 0 spoilSpatial
      [(0, false), (0, false), (0, false), (0, false), (0, false), (0, false), (1, false), (1, false), (1, true), (0, false)]
      (Unwind.init (spatialSpawn ((triScene keptScene).spatialCtx (triSplit keptScene) refSort [0, 1, 2])).shared
        ({ node := 0, begin := 0, stop := ((triScene keptScene).spatialCtx (triSplit keptScene) refSort [0, 1, 2]).aabbs.length
           splitEnd := maxReferenceCount ((triScene keptScene).spatialCtx (triSplit keptScene) refSort [0, 1, 2])
           depth := 0, isSorted := false }, .ready))).map
        (fun s => (s.workers.length, s.outcome, decide (1000 ∈ s.shared.refs.x.map Ref.primId))) = some (2, some false, true) := by decide +kernel
  obtain ⟨s, e, hs⟩ := Option.map_eq_some_iff.1 h
  obtain ⟨k, c, hk⟩ := uturns_run spoilSpatial_spoils _ (.refl _) e
  simp only [Prod.mk.injEq] at hs
  exact ⟨s, k, c, hk, hs.1, hs.2.1, of_decide_eq_true hs.2.2⟩

end Rtbvh
