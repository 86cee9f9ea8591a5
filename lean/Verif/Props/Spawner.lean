import Verif.Proofs.Spawner
import Verif.Props.Binned
/- Property C50 of the task spawner. -/
namespace Rtbvh

theorem tree_pool {α : Type} {m : Nat} {log log' : List α} {l l' : List (TaskTree α)}
    (h : PoolRun treeRun m log l log' l') :
    (log' ++ l'.flatMap TaskTree.labels).Perm (log ++ l.flatMap TaskTree.labels) ∧
      m + (l'.flatMap TaskTree.labels).length = (l.flatMap TaskTree.labels).length := by
  induction h with
  | refl hp =>
    have := hp.flatMap_right TaskTree.labels
    exact ⟨this.append_left _, by rw [this.length_eq]; omega⟩
  | step h1 h2 h3 h4 ih =>
    rename_i a R r
    obtain ⟨i1, i2⟩ := ih
    have p2 := h2.flatMap_right TaskTree.labels
    have p4 := h4.flatMap_right TaskTree.labels
    have l2 := p2.length_eq
    have l4 := p4.length_eq
    cases a with
    | leaf a =>
      simp only [treeRun, Option.some.injEq, Prod.mk.injEq] at h3
      obtain ⟨rfl, rfl⟩ := h3
      simp only [Ran.toList, List.nil_append] at p4 l4
      constructor
      · refine .trans (p4.append_left _) (.trans ?_ i1)
        rw [List.append_assoc]
        refine .trans ?_ (p2.symm.append_left _)
        simp [TaskTree.labels]
      · simp [TaskTree.labels] at l2 l4 i2 ⊢; omega
    | fork a x y =>
      simp only [treeRun, Option.some.injEq, Prod.mk.injEq] at h3
      obtain ⟨rfl, rfl⟩ := h3
      simp only [Ran.toList] at p4 l4
      constructor
      · refine .trans (p4.append_left _) (.trans ?_ i1)
        rw [List.append_assoc]
        refine .trans ?_ (p2.symm.append_left _)
        simp [TaskTree.labels]
      · simp [TaskTree.labels] at l2 l4 i2 ⊢; omega

/-- C50. `TaskSpawner` on any tree of tasks, with any work sizes and any spawn threshold, after any number `k` of turns
of its threads in any interleaving: no task has run twice (the log is part of a permutation of all task labels); if
`run` has returned, every task has run exactly once; if it has not returned some thread can make a turn (no
deadlock); no turn panics; and `k` is bounded, so every execution comes to the point where `run` returns. -/
theorem C50_every_task_once {α : Type} (size : TaskTree α → Nat) (threshold : Nat) (t : TaskTree α) (k : Nat)
    (s : Spawn (List α) (TaskTree α)) (h : SpawnRun treeRun size threshold k (Spawn.init [] t) s) :
    (∃ rest, (s.shared ++ rest).Perm t.labels) ∧
    (s.Returned → s.shared.Perm t.labels) ∧
    (¬ s.Returned → ∃ i s', spawnTurn treeRun size threshold s i = .next s') ∧
    (∀ i, spawnTurn treeRun size threshold s i ≠ .panic) ∧
    k ≤ 5 * t.labels.length + 2 := by
  obtain ⟨J, m, hm, hk⟩ := spawn_refines h (Joins.init t)
  obtain ⟨hp, hl⟩ := tree_pool hm
  have hinit : (poolOf (Spawn.init ([] : List α) t).workers).flatMap TaskTree.labels = t.labels := by
    simp [Spawn.init, poolOf, Worker.start, Worker.items]
  have hnp : ∀ i, spawnTurn treeRun size threshold s i ≠ .panic := by
    intro i hpan
    obtain ⟨a, _, ha⟩ := panic_item hpan
    cases a <;> simp [treeRun] at ha
  rw [hinit] at hp hl
  simp only [Spawn.init, List.nil_append] at hp
  refine ⟨⟨_, hp⟩, ?_, ?_, hnp, ?_⟩
  · rintro ⟨w, hw, hd⟩
    have := J.returned hw hd
    rw [this] at hp
    simpa using hp
  · intro hr
    obtain ⟨i, hi⟩ := J.progress treeRun size threshold hr
    refine ⟨i, ?_⟩
    cases e : spawnTurn treeRun size threshold s i with
    | panic => exact absurd e (hnp i)
    | blocked => exact absurd e hi
    | next s' => exact ⟨s', rfl⟩
  · have : todoOf (Spawn.init ([] : List α) t).workers = 2 := by
      simp [Spawn.init, todoOf, Worker.start, Worker.todo]
    omega

section
variable {F : Type} [FloatOps F]

theorem taskStep_length {ctx : BinnedCtx F} {nodes : List (BvhNode F)} {c : Nat} {sl : List Nat} {t : BinnedTask}
    {ph : TaskPhase} {n' c' sl' new} (h : taskStep ctx nodes c sl t ph = some (n', c', sl', new)) : new.length ≤ 2 := by
  unfold taskStep at h
  split at h
  · cases h
  · split at h
    · cases h
    · simp only [Option.some.injEq, Prod.mk.injEq] at h
      rw [← h.2.2.2]; simp
    · split at h
      · split at h
        · simp only [Option.some.injEq, Prod.mk.injEq] at h
          rw [← h.2.2.2]; simp
        · cases h
      · split at h
        · simp only [Option.some.injEq, Prod.mk.injEq] at h
          rw [← h.2.2.2]; simp
        · cases h

theorem legal_append {ctx : BinnedCtx F} {ks : List Nat} {k : Nat} {s s' : BinnedState F}
    (hl : LegalSchedule ctx ks s) (he : binnedExec ctx ks s = some s') (hk : k < s'.pending.length) :
    LegalSchedule ctx (ks ++ [k]) s := by
  induction ks generalizing s with
  | nil => simp only [binnedExec, Option.some.injEq] at he; subst he; exact ⟨hk, fun _ _ => trivial⟩
  | cons a ks ih =>
    refine ⟨hl.1, fun u hu => ?_⟩
    simp only [binnedExec, hu, Option.bind] at he
    exact ih (hl.2 u hu) he

theorem exec_append {ctx : BinnedCtx F} {ks : List Nat} {k : Nat} {s s' : BinnedState F}
    (he : binnedExec ctx ks s = some s') : binnedExec ctx (ks ++ [k]) s = binnedStep ctx s' k := by
  induction ks generalizing s with
  | nil =>
    simp only [binnedExec, Option.some.injEq] at he; subst he
    simp only [List.nil_append, binnedExec]
    cases binnedStep ctx s k <;> rfl
  | cons a ks ih =>
    simp only [binnedExec, List.cons_append] at he ⊢
    cases e : binnedStep ctx s a with
    | none => rw [e] at he; cases he
    | some u => rw [e] at he; simp only [Option.bind] at he ⊢; exact ih he

/-- Steps of pending tasks in any order are a legal schedule of the binned build. -/
theorem binned_pool {ctx : BinnedCtx F} {m : Nat} {sh sh' : BinnedShared F} {l l' : List (BinnedTask × TaskPhase)}
    (h : PoolRun (binnedRun ctx) m sh l sh' l') (s0 : BinnedState F) (h0 : sh = (s0.nodes, s0.counter, s0.prims))
    (hl : l.Perm s0.pending) :
    ∃ ks s, ks.length = m ∧ LegalSchedule ctx ks s0 ∧ binnedExec ctx ks s0 = some s ∧
      sh' = (s.nodes, s.counter, s.prims) ∧ l'.Perm s.pending := by
  induction h with
  | refl hp => exact ⟨[], s0, rfl, trivial, rfl, h0, hp.trans hl⟩
  | step h1 h2 h3 h4 ih =>
    rename_i a R r
    obtain ⟨ks, s, e1, e2, e3, e4, e5⟩ := ih h0 hl
    have hmem : a ∈ s.pending := (h2.symm.trans e5).subset (by simp)
    obtain ⟨i, hi, hia⟩ := List.mem_iff_getElem.1 hmem
    have hget : s.pending[i]? = some a := by rw [← hia]; exact List.getElem?_eq_getElem hi
    obtain ⟨t, ph⟩ := a
    have hrest : (s.pending.eraseIdx i).Perm R := by
      have p1 : s.pending.Perm ((t, ph) :: s.pending.eraseIdx i) := by
        rw [← hia]; exact (List.getElem_cons_eraseIdx_perm hi).symm
      exact (List.perm_cons _).1 (p1.symm.trans (e5.symm.trans h2))
    subst e4
    unfold binnedRun at h3
    simp only at h3
    split at h3
    · cases h3
    rename_i nodes' c' sl new hstep
    have hst : binnedStep ctx s i = some (BinnedState.mk nodes' c' (writeAt s.prims t.begin sl)
        (s.pending.eraseIdx i ++ new)) := by
      simp only [binnedStep, hget, hstep]
    refine ⟨ks ++ [i], _, by simp [e1], legal_append e2 e3 hi, (exec_append e3).trans hst, ?_, ?_⟩
    · split at h3 <;> cases h3 <;> rfl
    · refine h4.trans ?_
      have hlen := taskStep_length hstep
      have : r.toList = new := by
        split at h3
        · cases h3; rfl
        · cases h3; rfl
        · rename_i x y z
          cases h3
          simp at hlen
          simp [Ran.toList, hlen]
      rw [this]
      exact List.perm_append_comm.trans (hrest.symm.append_right _)

/-- C50 for the binned builder: whatever the interleaving of the spawner's threads, the build never panics, never
deadlocks and comes to an end after at most `15n - 8` turns; and when `TaskSpawner::run` returns, the shared memory is
what a complete schedule in the sense of C02-C05 leaves behind. -/
theorem C50_binned_spawner (b : Builder F) (order : List Nat) (h : b.Legal order) (threshold k : Nat)
    (s : Spawn (BinnedShared F) (BinnedTask × TaskPhase))
    (hr : SpawnRun (binnedRun (b.ctx order)) binnedSize threshold k (binnedSpawn (b.ctx order)) s) :
    k ≤ 15 * b.primitives.length - 8 ∧
    (∀ i, spawnTurn (binnedRun (b.ctx order)) binnedSize threshold s i ≠ .panic) ∧
    (¬ s.Returned → ∃ i s', spawnTurn (binnedRun (b.ctx order)) binnedSize threshold s i = .next s') ∧
    (s.Returned → ∃ ks bvh, b.Schedule order ks ∧ b.constructBinnedSah order ks = .ok (some (some bvh)) ∧
      bvh = binnedFinish { nodes := s.shared.1, counter := s.shared.2.1, prims := s.shared.2.2, pending := [] }) := by
  have hctx : (b.ctx order).aabbs.length = b.primitives.length := by
    simpa [Builder.ctx, BinnedCtx.new] using Builder.boxes_length h
  obtain ⟨J, m, hm, hk⟩ := spawn_refines hr (Joins.init _)
  have hpool0 : (poolOf (binnedSpawn (b.ctx order)).workers) = (binnedInit (b.ctx order)).pending := by
    simp [binnedSpawn, Spawn.init, poolOf, Worker.start, Worker.items, binnedInit]
  obtain ⟨ks, u, e1, e2, e3, e4, e5⟩ := binned_pool hm (binnedInit (b.ctx order)) rfl (by rw [hpool0])
  obtain ⟨tot, ⟨N, hN, hsch⟩, _⟩ := C02_binned_completes b order h
  have hks : b.Schedule order ks := e2
  have hle := (hsch ks hks).1
  have hpos : 0 < b.primitives.length := List.length_pos_iff.2 h.nonempty
  have hnp : ∀ i, spawnTurn (binnedRun (b.ctx order)) binnedSize threshold s i ≠ .panic := by
    intro i hpan
    obtain ⟨a, hmem, ha⟩ := panic_item hpan
    obtain ⟨j, hj, hja⟩ := List.mem_iff_getElem.1 (e5.subset hmem)
    have hget : u.pending[j]? = some a := by rw [← hja]; exact List.getElem?_eq_getElem hj
    have hstep : binnedStep (b.ctx order) u j = none := by
      simp only [binnedStep, hget]
      rw [e4] at ha
      simp only [binnedRun] at ha
      split at ha
      · rename_i e; rw [e]
      · split at ha <;> cases ha
    obtain ⟨r, er⟩ := tot (ks ++ [j])
    rw [Builder.construct_eq h] at er
    unfold binnedBuild at er
    rw [exec_append e3, hstep] at er
    simp only [Except.ok.injEq] at er
    split at er
    · rename_i hbad
      rcases hbad with hbad | hbad | hbad
      · exact hbad (by rw [hctx]; simp [Builder.ctx, BinnedCtx.new])
      · exact h.nonempty (by simpa [Builder.ctx, BinnedCtx.new] using hbad)
      · rw [hbad] at hctx; simp at hctx; exact h.nonempty (by simpa using hctx.symm)
    · cases er
  refine ⟨?_, hnp, ?_, ?_⟩
  · have : todoOf (binnedSpawn (b.ctx order)).workers = 2 := by
      simp [binnedSpawn, Spawn.init, todoOf, Worker.start, Worker.todo]
    clear hsch hnp e4 e5 e3 e2 hr J hm
    omega
  · intro hret
    obtain ⟨i, hi⟩ := J.progress (binnedRun (b.ctx order)) binnedSize threshold hret
    refine ⟨i, ?_⟩
    cases e : spawnTurn (binnedRun (b.ctx order)) binnedSize threshold s i with
    | panic => exact absurd e (hnp i)
    | blocked => exact absurd e hi
    | next s' => exact ⟨s', rfl⟩
  · rintro ⟨w, hw, hd⟩
    have hempty := J.returned hw hd
    rw [hempty] at e5
    have hp : u.pending = [] := e5.symm.eq_nil
    obtain ⟨r, er⟩ := tot ks
    rw [Builder.construct_eq h] at er
    refine ⟨ks, binnedFinish u, hks, ?_, ?_⟩
    · rw [Builder.construct_eq h]
      unfold binnedBuild at er ⊢
      rw [if_neg (by
        rintro (hbad | hbad | hbad)
        · exact hbad (by rw [hctx]; simp [Builder.ctx, BinnedCtx.new])
        · exact h.nonempty (by simpa [Builder.ctx, BinnedCtx.new] using hbad)
        · rw [hbad] at hctx; simp at hctx; exact h.nonempty (by simpa using hctx.symm)), e3]
      simp [hp]
    · rw [e4]; rfl
end

/-- Non-vacuity: three tasks, every forked task large enough for its own thread; two threads, the run returns. -/
def demoTree : TaskTree Nat := .fork 0 (.leaf 1) (.leaf 2)

/-- Run a list of turns, for the examples. -/
def turns {S A : Type} (run : S → A → Option (S × Ran A)) (size : A → Nat) (thr : Nat) :
    List Nat → Spawn S A → Option (Spawn S A)
  | [], s => some s
  | i :: is, s => match spawnTurn run size thr s i with
    | .next s' => turns run size thr is s'
    | _ => none

theorem turns_run {S A : Type} {run : S → A → Option (S × Ran A)} {size : A → Nat} {thr : Nat} (is : List Nat)
    {s0 s s' : Spawn S A} {k : Nat} (h : SpawnRun run size thr k s0 s) (e : turns run size thr is s = some s') :
    SpawnRun run size thr (k + is.length) s0 s' := by
  induction is generalizing s k with
  | nil => simp only [turns, Option.some.injEq] at e; subst e; exact h
  | cons i is ih =>
    simp only [turns] at e
    split at e
    · rename_i s1 hs1
      have := ih (.step i h hs1) e
      rw [show k + (i :: is).length = k + 1 + is.length by simp; omega]
      exact this
    · cases e

example : ∃ s, SpawnRun treeRun (fun _ => 5) 3 9 (Spawn.init [] demoTree) s ∧ s.Returned ∧ s.workers.length = 2 ∧
    s.shared = [0, 1, 2] := by
  refine ⟨_, turns_run (is := [0, 0, 1, 1, 0, 0, 1, 0, 0]) (.refl _) rfl, ⟨_, rfl, rfl⟩, rfl, rfl⟩

end Rtbvh
