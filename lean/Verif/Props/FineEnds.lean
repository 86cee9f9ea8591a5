import Verif.Props.Fine
import Verif.Props.SpatialSpawner
/- Property C79: builds whose tasks overlap end. -/
namespace Rtbvh
variable {F : Type} [FloatOps F]

/-- Every unfinished task has a step to make. -/
theorem Den.tasks_le {ctx : BinnedCtx F} {nodes : List (BvhNode F)} {idx b d : Nat} {sl P fp : List Nat} {T : BTree F}
    {ts : List (BinnedTask × TaskPhase)} {r : Nat} (h : Den ctx nodes idx b d sl T P fp ts r) : ts.length ≤ r := by
  have h0 := h.rem_zero_iff
  induction h with
  | @ready _ _ _ _ T => have := T.steps_pos; simp; omega
  | alloc =>
    simp only [List.length_singleton]
    by_contra hh
    have := h0.1 (by omega)
    simp at this
  | leaf => simp
  | node h h1 h2 hL hR ihL ihR =>
    have := ihL hL.rem_zero_iff
    have := ihR hR.rem_zero_iff
    simp only [List.length_append]
    omega

theorem binned_steps_bound {b : Builder F} {order : List Nat} (h : b.Legal order) {ks : List Nat}
    (hk : b.Schedule order ks) {s : BinnedState F}
    (e : binnedExec (b.ctx order) ks (binnedInit (b.ctx order)) = some s) :
    ks.length + s.pending.length ≤ 3 * b.primitives.length - 2 := by
  obtain ⟨T, P, _, hT, hI⟩ := binnedInit_inv (Builder.setting h) (le_trans h.small (by norm_num))
  obtain ⟨s', r', e', hI', _, hL⟩ := hI.exec ks
  rw [e] at e'
  cases e'
  have h1 := hL hk
  obtain ⟨⟨fp, ts, hD, _, _, _, hts⟩, _, _⟩ := hI'
  have h2 := hD.tasks_le
  rw [hts.length_eq] at h2
  have h3 := T.steps_eq
  have h4 : T.leaves ≤ b.primitives.length := by
    have := hT.leaves
    simpa using this
  omega

/-- C79, binned build: it ends.  Of the events of any history, however the tasks overlap, at most `2(3n - 2)` are
anything but a write of a task at work into memory it owns (at most `3n - 2` ends of steps and operations on the counter,
and a beginning for each); and as long as a task is left, another such event is possible. -/
theorem C79_binned_ends (b : Builder F) (order : List Nat) (h : b.Legal order) :
    (∀ f, FineReach (binnedSystem (b.ctx order)) (binnedInit (b.ctx order)) f →
      ∃ n, FineRun (binnedSystem (b.ctx order)) (binnedInit (b.ctx order)) n f) ∧
    ∀ n f, FineRun (binnedSystem (b.ctx order)) (binnedInit (b.ctx order)) n f →
      n ≤ 2 * (3 * b.primitives.length - 2) ∧
      (f.state.pending ≠ [] → ∃ f', FineStep (binnedSystem (b.ctx order)) f f' ∧
        ¬ f.Quiet (binnedSystem (b.ctx order)) f') := by
  refine ⟨fun f hf => hf.run, fun n f hf => ?_⟩
  have hM := binned_system_apart h
  obtain ⟨j, s, hP, hw, hS, hn⟩ := hf.stands hM ⟨[], trivial, rfl⟩
  have hwhole : ∀ {j : Nat} {s : BinnedState F}, WholeRun (binnedSystem (b.ctx order)) (binnedInit (b.ctx order)) j s →
      ∃ ks, b.Schedule order ks ∧ binnedExec (b.ctx order) ks (binnedInit (b.ctx order)) = some s ∧ ks.length = j := by
    intro j s hw
    induction hw with
    | init => exact ⟨[], trivial, rfl, rfl⟩
    | @step j s s' k _ hk e ih =>
      obtain ⟨ks, h1, h2, h3⟩ := ih
      have e' : binnedStep (b.ctx order) s k = some s' := by
        have e : (match binnedStep (b.ctx order) s k with | none => Except.error () | some s' => .ok s') = .ok s' := e
        cases hb : binnedStep (b.ctx order) s k with
        | none => rw [hb] at e; cases e
        | some s₁ => rw [hb] at e; cases e; rfl
      exact ⟨ks ++ [k], LegalSchedule.snoc h1 h2 hk, binnedExec_snoc h2 e', by simp [h3]⟩
  obtain ⟨ks, h1, h2, h3⟩ := hwhole hw
  have hb := binned_steps_bound h h1 h2
  have hr := runCount_le f
  have hl : f.running.length = s.pending.length := hS.length
  refine ⟨by omega, fun hne => ?_⟩
  rcases hS.moves hM hP hne with h' | ⟨e, he⟩
  · exact h'
  · exact absurd he ((C79_binned_overlap b order h f hf.reach).2.1 e)

example : demoBuilder.Legal [0, 1, 2, 3] ∧
    ∃ f, FineRun (binnedSystem (demoBuilder.ctx [0, 1, 2, 3])) (binnedInit (demoBuilder.ctx [0, 1, 2, 3])) 1 f ∧
      f.state.pending ≠ [] ∧ runCount f = 1 := by
  refine ⟨demo_legal, ⟨binnedInit (demoBuilder.ctx [0, 1, 2, 3]), [some (binnedInit (demoBuilder.ctx [0, 1, 2, 3]))]⟩,
    ?_, by simp [binnedInit], rfl⟩
  refine FineRun.event .init (.start (k := 0) rfl) fun hq => ?_
  have := hq.1
  cases this

/-- C79, spatial build: it ends.  Of the events of any history without a fault at most `4(2m + 1)` are anything but a
write of a task at work into memory it owns, `m` being the limit on references; and as long as a task is left, another such
event is possible or a task faults (as it would in some order of whole steps, `C79_spatial_overlap`). -/
theorem C79_spatial_ends (b : Builder F) (split : Nat → Fin 3 → F → Aabb F × Aabb F)
    (sort : Fin 3 → List (Ref F) → Option (List (Ref F))) (order : List Nat) (h : b.LegalSpatial order sort) :
    (∀ f, FineReach (spatialSystem (b.spatialCtx split sort order)) (spatialInit (b.spatialCtx split sort order)) f →
      ∃ n, FineRun (spatialSystem (b.spatialCtx split sort order)) (spatialInit (b.spatialCtx split sort order)) n f) ∧
    ∀ n f, FineRun (spatialSystem (b.spatialCtx split sort order)) (spatialInit (b.spatialCtx split sort order)) n f →
      n ≤ 4 * (2 * referenceLimit F b.primitives.length + 1) ∧
      (f.state.pending ≠ [] → (∃ f', FineStep (spatialSystem (b.spatialCtx split sort order)) f f' ∧
        ¬ f.Quiet (spatialSystem (b.spatialCtx split sort order)) f') ∨
        ∃ e, f.Faults (spatialSystem (b.spatialCtx split sort order)) e) := by
  refine ⟨fun f hf => hf.run, fun n f hf => ?_⟩
  have hM := spatial_system_apart split h
  obtain ⟨hset, hmax, hc⟩ := h.setting (split := split)
  obtain ⟨j, s, hP, hw, hS, hn⟩ := hf.stands hM ⟨[], trivial, rfl⟩
  have hwhole : ∀ {j : Nat} {s : SpatialState F}, WholeRun (spatialSystem (b.spatialCtx split sort order))
      (spatialInit (b.spatialCtx split sort order)) j s →
      ∃ ks, b.SpatialSchedule split sort order ks ∧ spatialExec (b.spatialCtx split sort order)
        (spatialThreshold (b.spatialCtx split sort order)) ks (spatialInit (b.spatialCtx split sort order)) = .ok s ∧
        ks.length = j := by
    intro j s hw
    induction hw with
    | init => exact ⟨[], trivial, rfl, rfl⟩
    | @step j s s' k _ hk e ih =>
      obtain ⟨ks, h1, h2, h3⟩ := ih
      have e' : spatialStep (b.spatialCtx split sort order) (spatialThreshold (b.spatialCtx split sort order)) s k =
        .ok s' := e
      have e3 := spatialExec_snoc (k := k) h2
      rw [e'] at e3
      exact ⟨ks ++ [k], spatialLegal_snoc h1 h2 hk, e3, by simp [h3]⟩
  obtain ⟨ks, h1, h2, h3⟩ := hwhole hw
  have hb := spatial_steps_bound hset h1 h2
  rw [hmax] at hb
  have hr := runCount_le f
  have hl : f.running.length = s.pending.length := hS.length
  exact ⟨by omega, fun hne => hS.moves hM hP hne⟩

example : (triScene lostScene).LegalSpatial [0, 1, 2] refSort ∧ ∃ f,
    FineRun (spatialSystem ((triScene lostScene).spatialCtx (triSplit lostScene) refSort [0, 1, 2]))
      (spatialInit ((triScene lostScene).spatialCtx (triSplit lostScene) refSort [0, 1, 2])) 1 f ∧
      f.state.pending ≠ [] ∧ runCount f = 1 := by
  refine ⟨triScene_legal _ _ (by decide) (by decide) (by decide) (by decide +kernel),
    ⟨spatialInit ((triScene lostScene).spatialCtx (triSplit lostScene) refSort [0, 1, 2]),
    [some (spatialInit ((triScene lostScene).spatialCtx (triSplit lostScene) refSort [0, 1, 2]))]⟩, ?_,
    by simp [spatialInit], rfl⟩
  refine FineRun.event .init (.start (k := 0) rfl) fun hq => ?_
  have := hq.1
  cases this

end Rtbvh
