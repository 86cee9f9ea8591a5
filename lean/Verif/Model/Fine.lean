import Verif.Spec.Race
/- The concurrent builds without the assumption that a task's step is atomic.  Between the moment a task begins a step and
the moment it ends it, other tasks run, and the memory the task may use can hold anything: in-place partitions, sorts and
partial writes are visible as arbitrary intermediate values.  Only the operations on the atomic counters stay atomic. -/
namespace Rtbvh

/-- What a build by tasks over shared memory consists of: the states `S` of memory, counters and unfinished tasks, the
tasks `X`, the values `K` of the atomic counters, and the faults `E`. -/
structure TaskSystem (S X K E : Type) where
  /-- The unfinished tasks. -/
  pending : S → List X
  /-- The atomic counters. -/
  counters : S → K
  /-- The state with the memory of the first argument, the given counters, and one task. -/
  alone : S → K → X → S
  /-- The locations a task may use. -/
  uses : X → Cell → Prop
  /-- Two states have the same contents in a location. -/
  same : S → S → Cell → Prop
  /-- Two states have arrays of the same lengths. -/
  sameSize : S → S → Prop
  /-- A whole step of a task, all at once. -/
  step : S → Nat → Except E S

/-- A state with tasks in the middle of a step: for every unfinished task, `none` if it is between steps, else the memory
with which the step began. -/
structure Fine (S : Type) where
  state : S
  running : List (Option S)

variable {S X K E : Type}

/-- Task number `k` is `x`, and is in the middle of a step that began with memory `m`. -/
def Fine.Runs (M : TaskSystem S X K E) (f : Fine S) (k : Nat) (x : X) (m : S) : Prop :=
  (M.pending f.state)[k]? = some x ∧ f.running[k]? = some (some m)

/-- One event of a build (src/builders/binned_sah.rs 132-282, src/builders/spatial_sah.rs 726-838; the tasks run on
several threads, src/utils.rs 189-289). -/
inductive FineStep (M : TaskSystem S X K E) : Fine S → Fine S → Prop
  /-- A task begins a step. -/
  | start {f : Fine S} {k : Nat} (hk : f.running[k]? = some none) :
      FineStep M f ⟨f.state, f.running.set k (some f.state)⟩
  /-- A task in the middle of a step changes one location it may use, to whatever value. -/
  | scribble {f f' : Fine S} {k : Nat} {x : X} {m : S} {c : Cell}
      (hk : f.Runs M k x m) (hc : M.uses x c) (hr : f'.running = f.running) (hp : M.pending f'.state = M.pending f.state)
      (hn : M.counters f'.state = M.counters f.state) (hl : M.sameSize f.state f'.state)
      (hs : ∀ c', c' ≠ c → M.same f.state f'.state c') : FineStep M f f'
  /-- A task in the middle of a step performs its operation on an atomic counter and goes on, with the rest of the work
  still before it; the locations it owns now but did not before hold what they hold. -/
  | atomic {f f' : Fine S} {k : Nat} {x x' : X} {m m' r : S} (hk : f.Runs M k x m)
      (he : M.step (M.alone m (M.counters f.state) x) 0 = .ok r)
      (hx : M.pending r = [x']) (hk' : ∀ c, M.uses x c → M.uses x' c)
      (hp : M.pending f'.state = (M.pending f.state).eraseIdx k ++ [x'])
      (hr : f'.running = f.running.eraseIdx k ++ [some m'])
      (hn : M.counters f'.state = M.counters r) (hl : M.sameSize f.state f'.state)
      (hs : ∀ c, M.same f.state f'.state c) (hl' : M.sameSize f.state m')
      (hu : ∀ c, M.uses x c → M.same r m' c) (ho : ∀ c, ¬ M.uses x c → M.same f.state m' c) : FineStep M f f'
  /-- A task ends a step: the locations it may use hold what the step makes of the memory with which it began and of the
  counters, and the tasks it makes can begin. -/
  | finish {f f' : Fine S} {k : Nat} {x : X} {m r : S} (hk : f.Runs M k x m)
      (he : M.step (M.alone m (M.counters f.state) x) 0 = .ok r)
      (hp : M.pending f'.state = (M.pending f.state).eraseIdx k ++ M.pending r)
      (hr : f'.running = f.running.eraseIdx k ++ (M.pending r).map fun _ => none)
      (hn : M.counters f'.state = M.counters r) (hl : M.sameSize f.state f'.state)
      (hu : ∀ c, M.uses x c → M.same r f'.state c)
      (hs : ∀ c, ¬ M.uses x c → M.same f.state f'.state c) : FineStep M f f'

/-- The states a build that starts with `s` (no task has begun) can get into. -/
inductive FineReach (M : TaskSystem S X K E) (s : S) : Fine S → Prop
  | init : FineReach M s ⟨s, (M.pending s).map fun _ => none⟩
  | step {f f' : Fine S} (h : FineReach M s f) (hs : FineStep M f f') : FineReach M s f'

/-- An event that only changes the contents of memory: no task begins or ends a step or uses an atomic counter. -/
def Fine.Quiet (M : TaskSystem S X K E) (f f' : Fine S) : Prop :=
  f'.running = f.running ∧ M.pending f'.state = M.pending f.state ∧ M.counters f'.state = M.counters f.state

/-- A history that leads to a state, with the number of its events other than writes to memory. -/
inductive FineRun (M : TaskSystem S X K E) (s : S) : Nat → Fine S → Prop
  | init : FineRun M s 0 ⟨s, (M.pending s).map fun _ => none⟩
  | write {n : Nat} {f f' : Fine S} (h : FineRun M s n f) (hs : FineStep M f f') (hq : f.Quiet M f') : FineRun M s n f'
  | event {n : Nat} {f f' : Fine S} (h : FineRun M s n f) (hs : FineStep M f f') (hq : ¬ f.Quiet M f') :
      FineRun M s (n + 1) f'

/-- A task faults in the middle of the step it is in. -/
def Fine.Faults (M : TaskSystem S X K E) (f : Fine S) (e : E) : Prop :=
  ∃ k x m, f.Runs M k x m ∧ M.step (M.alone m (M.counters f.state) x) 0 = .error e

variable {F : Type} [FloatOps F]

/-- The binned build (src/builders/binned_sah.rs 132-282, 346-399). -/
def binnedSystem (ctx : BinnedCtx F) : TaskSystem (BinnedState F) (BinnedTask × TaskPhase) Nat Unit where
  pending s := s.pending
  counters s := s.counter
  alone s n x := { s with counter := n, pending := [x] }
  uses := BinnedTask.Uses
  same := BinnedState.SameAt
  sameSize s s' := s.nodes.length = s'.nodes.length ∧ s.prims.length = s'.prims.length
  step s k := match binnedStep ctx s k with
    | none => .error ()
    | some s' => .ok s'

/-- The spatial build (src/builders/spatial_sah.rs 726-838, 927-1033). -/
def spatialSystem (ctx : SpatialCtx F) :
    TaskSystem (SpatialState F) (SpatialTask × SpatialPhase) (Nat × Nat) Fault where
  pending s := s.pending
  counters s := (s.counter, s.refCount)
  alone s n x := { s with counter := n.1, refCount := n.2, pending := [x] }
  uses := SpatialTask.Uses
  same := SpatialState.SameAt
  sameSize s s' := s.nodes.length = s'.nodes.length ∧ s.prims.length = s'.prims.length ∧
    s.refs.x.length = s'.refs.x.length ∧ s.refs.y.length = s'.refs.y.length ∧ s.refs.z.length = s'.refs.z.length
  step := spatialStep ctx (spatialThreshold ctx)

end Rtbvh
