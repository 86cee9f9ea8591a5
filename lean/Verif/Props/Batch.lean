import Verif.Proofs.Batch
import Verif.Props.Traversal
import Verif.Props.Mbvh
import Verif.Props.Exact
import Verif.Props.TraceExact
/- C98: tracing a buffer of rays in parallel (examples/benchmark.rs). -/
namespace Rtbvh
open FloatOps
variable {F P σ τ ι : Type}

/-- The sequential branch ends, with a buffer in which each place depends on the ray in that place alone, and the parallel
branch gives the same buffer under every schedule. -/
def SameAsSequential (c : Tracer σ τ ι) (alone : σ → Run σ ι) (width : Nat) (rays : List σ) (bound : Nat) : Prop :=
  ∃ out, traceAll alone rays = some out ∧ out.length = rays.length ∧
    (∀ (i : Nat) (r : σ), rays[i]? = some r → (alone r).ending = .finished ∧ out[i]? = some (alone r).ray) ∧
    ParallelGives c width rays out bound

theorem noBreak_not_stopped (step : Trav σ → Step σ ι) (body : σ → ι → σ) : ∀ (fuel : Nat) (t : Trav σ),
    (drive step (noBreak body) fuel t).ending ≠ .stopped
  | 0, _ => by simp [drive]
  | fuel + 1, t => by
    simp only [drive]
    split
    · simp
    · simp
    · exact noBreak_not_stopped step body fuel _
    · simp only [noBreak, Run.cons]; exact noBreak_not_stopped step body fuel _

theorem noBreak_not_stoppedQ (step : QTrav σ → QStep σ ι) (body : σ → ι → σ) : ∀ (fuel : Nat) (t : QTrav σ),
    (qdrive step (noBreak body) fuel t).ending ≠ .stopped
  | 0, _ => by simp [qdrive]
  | fuel + 1, t => by
    simp only [qdrive]
    split
    · simp
    · simp
    · exact noBreak_not_stoppedQ step body fuel _
    · simp only [noBreak, Run.cons]; exact noBreak_not_stoppedQ step body fuel _

theorem same_of_alone {c : Tracer σ τ ι} {alone : σ → Run σ ι} {width fuel : Nat} (hW : 0 < width) {rays : List σ}
    (hfin : ∀ r ∈ rays, (alone r).ending = .finished)
    (hst : ∀ r ∈ rays, (alone r).ending = .finished → ∃ n, n ≤ 3 * fuel ∧ FinishesIn c n (c.start r) r (alone r).ray) :
    SameAsSequential c alone width rays (rays.length * (3 * fuel + 1)) := by
  refine ⟨_, traceAll_eq hfin, by simp, fun i r e => ⟨hfin r (List.mem_of_getElem? e), by simp [e]⟩, ?_⟩
  refine parallel_main hW fun r hr => ?_
  obtain ⟨n, hn, hf⟩ := hst r hr (hfin r hr)
  exact ⟨n, by omega, hf⟩

/-- A loop over a `Bvh` iterator, as steps on the buffer. -/
theorem finishes_trav {step : Trav σ → Step σ ι} {c : Tracer σ (Trav σ) ι} (hr : c.round = fun t => (step t).toRound)
    (hs : c.set = Trav.setRay) (hray : ∀ t t', (step t = .cont t' → t'.ray = t.ray) ∧ ∀ x, step t = .yield x t' → t'.ray = t.ray)
    (hst : ∀ r, (c.start r).ray = r) (fuel : Nat) (r : σ)
    (h : (drive step (noBreak c.body) fuel (c.start r)).ending = .finished) :
    ∃ n, n ≤ 3 * fuel ∧ FinishesIn c n (c.start r) r (drive step (noBreak c.body) fuel (c.start r)).ray := by
  have e1 : c.set r (c.start r) = c.start r := by
    rw [hs]; conv_rhs => rw [show c.start r = Trav.setRay (c.start r).ray (c.start r) from rfl, hst]
  have key := finishesIn_gdrive (c := c) (get := Trav.ray) (by intro r t; rw [hs]; rfl) (by intro t; rw [hs]; rfl)
    (by intro t t' e; rw [hr] at e; exact (hray t t').1 (Step.toRound_cont e))
    (by intro t t' x e; rw [hr] at e; exact (hray t t').2 x (Step.toRound_yield e)) fuel (c.start r) r
  rw [e1, hr, hs, ← drive_gdrive] at key
  exact key h

/-- A loop over an `Mbvh` iterator, as steps on the buffer. -/
theorem finishes_qtrav {step : QTrav σ → QStep σ ι} {c : Tracer σ (QTrav σ) ι} (hr : c.round = fun t => (step t).toRound)
    (hs : c.set = QTrav.setRay)
    (hray : ∀ t t', (step t = .cont t' → t'.ray = t.ray) ∧ ∀ x, step t = .yield x t' → t'.ray = t.ray)
    (hst : ∀ r, (c.start r).ray = r) (fuel : Nat) (r : σ)
    (h : (qdrive step (noBreak c.body) fuel (c.start r)).ending = .finished) :
    ∃ n, n ≤ 3 * fuel ∧ FinishesIn c n (c.start r) r (qdrive step (noBreak c.body) fuel (c.start r)).ray := by
  have e1 : c.set r (c.start r) = c.start r := by
    rw [hs]; conv_rhs => rw [show c.start r = QTrav.setRay (c.start r).ray (c.start r) from rfl, hst]
  have key := finishesIn_gdrive (c := c) (get := QTrav.ray) (by intro r t; rw [hs]; rfl) (by intro t; rw [hs]; rfl)
    (by intro t t' e; rw [hr] at e; exact (hray t t').1 (QStep.toRound_cont e))
    (by intro t t' x e; rw [hr] at e; exact (hray t t').2 x (QStep.toRound_yield e)) fuel (c.start r) r
  rw [e1, hr, hs, ← qdrive_gdrive] at key
  exact key h

variable [FloatOps F]

/-- C98 for a `Bvh`: a well-formed BVH of depth at most 31 over a slice that covers its ids, any loop body, any buffer of rays
(or of packets), any chunk width.  Tracing the buffer in parallel gives, under every schedule, what tracing it ray by ray
gives. -/
theorem C98_bvh (b : Bvh F) (T : BTree F) (h : b.Denotes T) (hd : T.depth ≤ 31) (prims : List P)
    (hcov : prims = [] ∨ ∀ id ∈ b.indices, id < prims.length) (width : Nat) (hW : 0 < width) (fuel : Nat)
    (hf : T.rounds < fuel) :
    (∀ (body : Ray F → P → Ray F) (rays : List (Ray F)),
      SameAsSequential (b.rayTracer prims body) (b.forPrims prims (noBreak body) fuel) width rays
        (rays.length * (3 * fuel + 1))) ∧
    (∀ (body : RayPacket4 F → P → RayPacket4 F) (packets : List (RayPacket4 F)),
      SameAsSequential (b.packetTracer prims body) (b.forPrimsPacket prims (noBreak body) fuel) width packets
        (packets.length * (3 * fuel + 1))) := by
  constructor
  · intro body rays
    refine same_of_alone hW (fun r _ => ?_) fun r _ hr => ?_
    · exact (C25_prims_terminate_partial b T h hd prims hcov fuel hf (noBreak body) r).resolve_right
        (noBreak_not_stopped _ body fuel _)
    · exact finishes_trav (c := b.rayTracer prims body) rfl rfl (fun t t' => bvhPrimStep_holds)
        (fun r => rfl) fuel r hr
  · intro body pks
    refine same_of_alone hW (fun r _ => ?_) fun r _ hr => ?_
    · suffices hs : (b.forPrimsPacket prims (noBreak body) fuel r).ending = .finished ∨
          (b.forPrimsPacket prims (noBreak body) fuel r).ending = .stopped from
        hs.resolve_right (noBreak_not_stopped _ body fuel _)
      by_cases hne : prims = []
      · left
        subst hne
        obtain ⟨n, rfl⟩ : ∃ n, fuel = n + 1 := ⟨fuel - 1, by omega⟩
        unfold Bvh.forPrimsPacket travNew
        simp [drive, bvhPrimStep]
      · have := (C24_prims_agree b prims hne (hcov.resolve_left hne) fuel).2 (noBreak body)
          (fun r id => match prims[id]? with | some p => noBreak body r p | none => (r, false)) r
          (by intro r id p hp; simp [hp])
        have h2 := (C22_stack_safe b T h hd fuel hf).2 r
          (fun r id => match prims[id]? with | some p => noBreak body r p | none => (r, false))
        rw [← this.2.2] at h2
        exact h2
    · exact finishes_trav (c := b.packetTracer prims body) rfl rfl (fun t t' => bvhPrimStep_holds)
        (fun r => rfl) fuel r hr

/-- C98 for an `Mbvh`, for any slice of primitives. -/
theorem C98_mbvh (q : Mbvh F) (Q : QTree F) (h : q.Denotes Q) (hd : Q.stackNeed ≤ 32) (prims : List P)
    (width : Nat) (hW : 0 < width) (fuel : Nat) (hf : Q.rounds ≤ fuel) :
    (∀ (body : Ray F → P → Ray F) (rays : List (Ray F)),
      SameAsSequential (q.rayTracer prims body) (q.forPrims prims (noBreak body) fuel) width rays
        (rays.length * (3 * fuel + 1))) ∧
    (∀ (body : RayPacket4 F → P → RayPacket4 F) (packets : List (RayPacket4 F)),
      SameAsSequential (q.packetTracer prims body) (q.forPrimsPacket prims (noBreak body) fuel) width packets
        (packets.length * (3 * fuel + 1))) := by
  have ht := C25_mbvh_prims_terminate q Q h hd prims fuel hf
  constructor
  · intro body rays
    refine same_of_alone hW (fun r _ => ?_) fun r _ hr => ?_
    · exact (ht.1 (noBreak body) r).resolve_right (noBreak_not_stoppedQ _ body fuel _)
    · exact finishes_qtrav (c := q.rayTracer prims body) rfl rfl (fun t t' => quadStep_holds) (fun r => rfl) fuel r hr
  · intro body pks
    refine same_of_alone hW (fun r _ => ?_) fun r _ hr => ?_
    · exact (ht.2 (noBreak body) r).resolve_right (noBreak_not_stoppedQ _ body fuel _)
    · exact finishes_qtrav (c := q.packetTracer prims body) rfl rfl (fun t t' => quadStep_holds) (fun r => rfl) fuel r hr

omit [FloatOps F]

/-- A schedule without the steps of task `k`. -/
def dropTask (k : Nat) (schedule : List Nat) : List Nat := schedule.filter (· != k)

/-- Tasks stay in their chunks. -/
def InChunks (width : Nat) (s : BatchState σ τ ι) : Prop :=
  ∀ (j : Nat) (w : ChunkTask σ τ ι), s.tasks[j]? = some w → j * width ≤ w.next ∧ w.stop ≤ (j + 1) * width

/-- Two states that differ in chunk `k` only: in its task and in its part of the buffer. -/
structure AgreeOff (width k : Nat) (s s' : BatchState σ τ ι) : Prop where
  tasks : ∀ j, j ≠ k → s.tasks[j]? = s'.tasks[j]?
  count : s.tasks.length = s'.tasks.length
  rays : ∀ i, ¬ (k * width ≤ i ∧ i < (k + 1) * width) → s.rays[i]? = s'.rays[i]?
  size : s.rays.length = s'.rays.length

/-- What a step of task `k` changes. -/
theorem batchStep_touches {c : Tracer σ τ ι} {s s' : BatchState σ τ ι} {k : Nat} (e : batchStep c s k = some s') :
    ∃ w w', s.tasks[k]? = some w ∧ w.next < w.stop ∧ s'.tasks = s.tasks.set k w' ∧ w.next ≤ w'.next ∧ w'.stop = w.stop ∧
      s'.rays.length = s.rays.length ∧ ∀ i, i ≠ w.next → s'.rays[i]? = s.rays[i]? := by
  unfold batchStep at e
  cases hw : s.tasks[k]? with
  | none => simp [hw] at e
  | some w =>
    simp only [hw] at e
    split at e
    case isFalse => cases e
    case isTrue hlt =>
    cases hr : s.rays[w.next]? with
    | none => simp [hr] at e
    | some r =>
      simp only [hr] at e
      repeat' split at e
      all_goals first
        | (cases e; done)
        | (injection e with e; subst e; exact ⟨w, _, rfl, hlt, rfl, by simp, rfl, rfl, fun _ _ => rfl⟩)
        | (injection e with e; subst e
           exact ⟨w, _, rfl, hlt, rfl, by simp, rfl, by simp, fun i hi => List.getElem?_set_ne (by omega)⟩)

theorem InChunks.step {c : Tracer σ τ ι} {width : Nat} {s s' : BatchState σ τ ι} {k : Nat} (h : InChunks width s)
    (e : batchStep c s k = some s') : InChunks width s' := by
  obtain ⟨w, w', hw, hlt, h1, h2, h3, _⟩ := batchStep_touches e
  intro j v hv
  rw [h1] at hv
  by_cases hj : j = k
  · subst hj
    have hk : j < s.tasks.length := by
      by_contra hh; rw [List.getElem?_eq_none (by omega)] at hw; cases hw
    rw [List.getElem?_set_self hk] at hv
    obtain rfl := Option.some.inj hv
    have := h j w hw
    exact ⟨by omega, by omega⟩
  · rw [List.getElem?_set_ne (by omega)] at hv
    exact h j v hv

/-- A step of another task does the same in both. -/
theorem AgreeOff.step {c : Tracer σ τ ι} {width k j : Nat} {s s' s1 : BatchState σ τ ι} (h : AgreeOff width k s s')
    (hc : InChunks width s) (hj : j ≠ k) (e : batchStep c s j = some s1) :
    ∃ s1', batchStep c s' j = some s1' ∧ AgreeOff width k s1 s1' := by
  obtain ⟨w, _, hw, hlt, _⟩ := batchStep_touches e
  have hin := hc j w hw
  have hw' : s'.tasks[j]? = some w := by rw [← h.tasks j hj]; exact hw
  have hne : ¬ (k * width ≤ w.next ∧ w.next < (k + 1) * width) := fun hh => hj (by
    rw [← chunk_of hin.1 (lt_of_lt_of_le hlt hin.2), chunk_of hh.1 hh.2])
  have hr := h.rays w.next hne
  have tasksOk : ∀ (w' : ChunkTask σ τ ι), ∀ i, i ≠ k → (s.tasks.set j w')[i]? = (s'.tasks.set j w')[i]? := by
    intro w' i hi
    by_cases hij : j = i
    · subst hij
      rw [List.getElem?_set, List.getElem?_set, h.count, h.tasks _ hi]
    · rw [List.getElem?_set_ne hij, List.getElem?_set_ne hij]; exact h.tasks i hi
  have raysOk : ∀ (r' : σ), ∀ i, ¬ (k * width ≤ i ∧ i < (k + 1) * width) →
      (s.rays.set w.next r')[i]? = (s'.rays.set w.next r')[i]? := by
    intro r' i hi
    by_cases hij : w.next = i
    · subst hij
      rw [List.getElem?_set, List.getElem?_set, h.size, h.rays _ hi]
    · rw [List.getElem?_set_ne hij, List.getElem?_set_ne hij]; exact h.rays i hi
  unfold batchStep at e ⊢
  simp only [hw, hlt, if_true, hr] at e
  simp only [hw', hlt, if_true]
  cases hr' : s'.rays[w.next]? with
  | none => simp [hr'] at e
  | some r =>
    simp only [hr'] at e ⊢
    repeat' split at e
    all_goals first
      | (cases e; done)
      | (injection e with e; subst e
         refine ⟨_, rfl, ⟨tasksOk _, by simp [h.count], ?_, by simp [h.size]⟩⟩
         first | exact h.rays | exact raysOk _)

theorem AgreeOff.own {c : Tracer σ τ ι} {width k : Nat} {s s' s1 : BatchState σ τ ι} (h : AgreeOff width k s s')
    (hc : InChunks width s) (e : batchStep c s k = some s1) : AgreeOff width k s1 s' := by
  obtain ⟨w, w', hw, hlt, h1, h2, h3, h4, h5⟩ := batchStep_touches e
  have hin := hc k w hw
  refine ⟨fun j hj => ?_, ?_, fun i hi => ?_, h4.trans h.size⟩
  · rw [h1, List.getElem?_set_ne (by omega)]; exact h.tasks j hj
  · rw [h1, List.length_set]; exact h.count
  · rw [h5 i (by intro hh; subst hh; exact hi ⟨hin.1, by omega⟩)]; exact h.rays i hi

theorem AgreeOff.run {c : Tracer σ τ ι} {width k : Nat} : ∀ (ks : List Nat) {s s' s1 : BatchState σ τ ι},
    AgreeOff width k s s' → InChunks width s → ks.foldlM (batchStep c) s = some s1 →
    ∃ s1', (dropTask k ks).foldlM (batchStep c) s' = some s1' ∧ AgreeOff width k s1 s1'
  | [], s, s', s1, h, _, e => by
    simp only [List.foldlM_nil] at e
    obtain rfl := Option.some.inj e
    exact ⟨s', rfl, h⟩
  | j :: ks, s, s', s1, h, hc, e => by
    simp only [List.foldlM_cons, Option.bind_eq_bind, Option.bind_eq_some_iff] at e
    obtain ⟨s2, e1, e2⟩ := e
    by_cases hj : j = k
    · subst hj
      have := AgreeOff.run ks (h.own hc e1) (hc.step e1) e2
      simpa [dropTask] using this
    · obtain ⟨s2', e3, h3⟩ := h.step hc hj e1
      obtain ⟨s1', e4, h4⟩ := AgreeOff.run ks h3 (hc.step e1) e2
      refine ⟨s1', ?_, h4⟩
      unfold dropTask at e4 ⊢
      simp [hj, e3, e4]

/-- C98, isolation: for any iterator and body, also one that panics or never ends on some rays, what the tasks of the other
chunks do does not depend on chunk `k`: leave out the steps of its task, and the schedule is still possible, the other tasks
are where they were, and the buffer is the same outside the chunk. -/
theorem C98_isolated (c : Tracer σ τ ι) (width k : Nat) (rays : List σ) (schedule : List Nat)
    (s : BatchState σ τ ι) (e : batchRun c width rays schedule = some s) :
    ∃ s', batchRun c width rays (dropTask k schedule) = some s' ∧
      (∀ j, j ≠ k → s.tasks[j]? = s'.tasks[j]?) ∧
      (∀ i, ¬ (k * width ≤ i ∧ i < (k + 1) * width) → s.rays[i]? = s'.rays[i]?) := by
  obtain ⟨s', e', h⟩ := AgreeOff.run schedule (width := width) (k := k) ⟨fun _ _ => rfl, rfl, fun _ _ => rfl, rfl⟩
    (by
      intro j w hw
      simp only [chunkTasks, List.getElem?_map, Option.map_eq_some_iff] at hw
      obtain ⟨i, h1, rfl⟩ := hw
      obtain ⟨hlt, h2⟩ := List.getElem?_eq_some_iff.1 h1
      rw [List.getElem_range] at h2
      subst h2
      exact ⟨le_refl _, Nat.min_le_left _ _⟩) e
  exact ⟨s', e', h.tasks, h.rays⟩

/-- C93, a whole frame: the clustering builder over a mesh, the benchmark's loop body, a buffer of rays each of which meets the
conditions of `C93_true_hits_partial`.  Traced in parallel, in chunks of any width and under any schedule, the buffer ends up
with the same rays, each with the `t` that testing every triangle leaves.  Missing: as in `C93_true_hits_partial`. -/
theorem C93_frame_partial (b : Builder F32) (order : List Nat) (h : b.Legal order) (t rounds : Nat) (ht : 0 < t)
    (hs : b.primitives.length ≤ 2 ^ 29) (bvh : Bvh F32)
    (e : b.constructLocb order t rounds = .ok (some (some bvh))) (T : BTree F32) (hU : Unfolds bvh.nodes 0 T)
    (hdep : T.depth ≤ 31) (tris : List (Triangle F32)) (hl : tris.length = b.primitives.length)
    (hfit : BoxesHold tris (boxAt (b.boxes order))) (hm : ∀ a ∈ b.boxes order, a.Moderate)
    (rays : List (Ray F32)) (hr : ∀ ray ∈ rays, ray.WellFormed ∧ ray.origin.Moderate ∧ ray.direction.Ordinary ∧
      ray.direction.NoNegZero ∧ ray.tMin.IsFin ∧ NoFalseHits tris ray)
    (width : Nat) (hW : 0 < width) :
    ∃ (out : List (Ray F32)) (bound : Nat),
      ParallelGives (bvh.rayTracer tris benchBody) width rays out bound ∧ out.length = rays.length ∧
      ∀ (i : Nat) (ray : Ray F32), rays[i]? = some ray →
        ∃ s, out[i]? = some { ray with t := s } ∧ Same s (testAll tris ray).t := by
  have hn : ∀ a ∈ b.boxes order, a.Numeric := fun a ha =>
    ⟨⟨(hm a ha).1.1.num, (hm a ha).1.2.1.num, (hm a ha).1.2.2.num⟩, (hm a ha).2.1.num, (hm a ha).2.2.1.num,
      (hm a ha).2.2.2.num⟩
  have S := locb_padded b order h t rounds ht hs hn bvh e T hU
  have hro := S.rounds
  have hcov : ∀ id ∈ bvh.indices, id < tris.length := fun id hid => by
    rw [hl]
    exact List.mem_range.1 ((C11_locb_structure b order h t rounds ht hs bvh e).1.mem_iff.1 hid)
  have hne : tris ≠ [] := by rintro rfl; simp at hl; omega
  obtain ⟨out, h1, h2, h3, h4⟩ := (C98_bvh bvh T S.compact.toDenotes hdep tris (.inr hcov) width hW
    (3 * b.primitives.length) hro).1 benchBody rays
  refine ⟨out, _, h4, h2, fun i ray hi => ?_⟩
  obtain ⟨a1, a2, a3, a4, a5, a6⟩ := hr ray (List.mem_of_getElem? hi)
  obtain ⟨-, k2, k3⟩ := C93_true_hits_partial b order h t rounds ht hs bvh e T hU hdep tris hl hfit hm ray a1 a2 a3 a4 a5 a6
    (3 * b.primitives.length) (le_refl _)
  have hag := ((C24_prims_agree bvh tris hne hcov (3 * b.primitives.length)).1 (noBreak benchBody) (meshCb tris) ray
    (by intro r id p hp; simp [meshCb, hp, noBreak, benchBody])).2.1
  refine ⟨_, ?_, k3⟩
  rw [(h3 i ray hi).2, hag]
  exact congrArg some k2

/- The hypotheses of `C93_frame_partial` are those of `C93_true_hits_partial` for every ray of the buffer; the example at the
end of Props/TraceExact.lean meets them, with a buffer of any number of copies of its ray. -/

/-- Five rays into `rowOfTris`. -/
def frameRays : List (Ray F32) :=
  [rowOfTrisRay, rowOfTrisAxisRay, { rowOfTrisRay with t := lit 1 0 }, Ray.new (whole (-1) 0 0) (whole (-1) 0 0), rowOfTrisAxisRay]

/-- Play tasks in turn, `rounds` times round, those that can make a step. -/
def takeTurns (c : Tracer σ τ ι) (m : Nat) : Nat → BatchState σ τ ι → List Nat × BatchState σ τ ι
  | 0, s => ([], s)
  | n + 1, s =>
    let one := (List.range m).foldl (fun (a : List Nat × BatchState σ τ ι) k =>
      match batchStep c a.2 k with | some s' => (a.1 ++ [k], s') | none => a) ([], s)
    let rest := takeTurns c m n one.2
    (one.1 ++ rest.1, rest.2)

/-- Non-vacuity of C98: the mesh `rowOfTris` under the clustering builder, five rays in chunks of two, three tasks taking
turns step by step.  All end; the first, second and fifth at the nearest triangle, the third keeps its `t`, the fourth goes
the other way. -/
example : ∃ (bvh : Bvh F32) (T : BTree F32), bvh.Denotes T ∧ T.depth ≤ 31 ∧ T.rounds < 40 ∧
    (∀ id ∈ bvh.indices, id < rowOfTris.length) ∧ ∃ schedule s,
      batchRun (bvh.rayTracer rowOfTris benchBody) 2 frameRays schedule = some s ∧ s.Finished ∧ 40 < schedule.length ∧
      s.rays.map Ray.t = [lit 3 0, lit 3 0, lit 1 0, lit 1 34, lit 3 0] := by
  have key : (builtTree ((meshScene rowOfTris (some 1)).constructLocb (List.range 4) 2 5)).map (fun x =>
      let sch := (takeTurns (x.1.rayTracer rowOfTris benchBody) 3 80
        ⟨frameRays, chunkTasks 2 5⟩).1
      (decide (x.2.depth ≤ 31 ∧ x.2.rounds < 40 ∧ (∀ id ∈ x.1.indices, id < rowOfTris.length) ∧ 40 < sch.length),
        (batchRun (x.1.rayTracer rowOfTris benchBody) 2 frameRays sch).map fun s =>
          (decide (∀ w ∈ s.tasks, w.next = w.stop), s.rays.map Ray.t))) =
      some (true, some (true, [lit 3 0, lit 3 0, lit 1 0, lit 1 34, lit 3 0])) := by decide +kernel
  obtain ⟨⟨bvh, T⟩, e, h2⟩ := Option.map_eq_some_iff.1 key
  obtain ⟨e1, e2⟩ := builtTree_some e
  simp only [Prod.mk.injEq, decide_eq_true_eq, Option.map_eq_some_iff] at h2
  obtain ⟨⟨a1, a2, a3, a4⟩, s, a5, a6, a7⟩ := h2
  have hL := meshScene_legal rowOfTris (some 1) (by decide) (by decide)
  obtain ⟨T', hc, _⟩ := returns_tree hL (by decide) (.inr ⟨2, 5, by decide, e1⟩)
  have := e2.det hc.unfolds; subst this
  exact ⟨bvh, _, hc.toDenotes, a1, a2, a3, _, s, a5, a6, a4, a7⟩

end Rtbvh
