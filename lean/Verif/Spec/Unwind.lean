import Verif.Model.Unwind
import Verif.Model.SpatialSpawner
import Verif.Spec.Spawner
/- Specification vocabulary: executions of the task spawner in which tasks may panic. -/
namespace Rtbvh
variable {S A : Type}

/-- `UnwindRun … allowed k c s s'`: `k` turns, of threads chosen in any way, lead from `s` to `s'`, and in `c` of them a task
panicked.  At any turn the user's code may panic and leave any memory that `allowed task before after` permits. -/
inductive UnwindRun (run : S → A → Option (S × Ran A)) (size : A → Nat) (threshold : Nat) (allowed : A → S → S → Prop) :
    Nat → Nat → Unwind S A → Unwind S A → Prop
  | refl (s) : UnwindRun run size threshold allowed 0 0 s s
  | step {k c s s' s'' crash p} (i : Nat) : UnwindRun run size threshold allowed k c s s' →
      (∀ sh w a, crash = some sh → s'.workers[i]? = some w → w.current = some a → allowed a s'.shared sh) → unwindTurn run size threshold s' i crash = some (s'', p) →
      UnwindRun run size threshold allowed (k + 1) (c + p.toNat) s s''

/-- No thread is in `run_task` any more. -/
def Unwind.AllEnded (s : Unwind S A) : Prop := ∀ w ∈ s.workers, w.fate ≠ .running

/-- The same state in the model without panics (a thread that unwound has ended). -/
def Unwind.toSpawn (s : Unwind S A) : Spawn S A :=
  { shared := s.shared
    workers := s.workers.map fun w => { current := w.current, stack := w.stack, handles := w.handles
                                        done := decide (w.fate ≠ .running) } }

/-- The task panicked anywhere in its work: its own node (and the two nodes it has allocated) and its own part of the index
array hold anything, the rest of the memory is untouched. -/
def BinnedSpoils {F : Type} (a : BinnedTask × TaskPhase) (before after : BinnedShared F) : Prop :=
  after.1.length = before.1.length ∧
  (∀ i, i ≠ a.1.node → (∀ left, a.2 = .allocated left → i ≠ left ∧ i ≠ left + 1) → after.1[i]? = before.1[i]?) ∧
  after.2.1 = before.2.1 ∧
  after.2.2.length = before.2.2.length ∧
  ∀ i, i < a.1.begin ∨ a.1.stop ≤ i → after.2.2[i]? = before.2.2[i]?

/-- The same for the spatial builder, whose tasks own a node and a range of each of the three reference arrays.  (No user
code runs once the task has allocated nodes or leaf ids.) -/
def SpatialSpoils {F : Type} (a : SpatialTask × SpatialPhase) (before after : SpatialShared F) : Prop :=
  after.nodes.length = before.nodes.length ∧
  (∀ i, i ≠ a.1.node → (∀ left, a.2 = .allocated left → i ≠ left ∧ i ≠ left + 1) → after.nodes[i]? = before.nodes[i]?) ∧
  after.counter = before.counter ∧ after.refCount = before.refCount ∧ after.prims = before.prims ∧
  (after.refs.x.length = before.refs.x.length ∧ after.refs.y.length = before.refs.y.length ∧
    after.refs.z.length = before.refs.z.length) ∧
  ∀ i, i < a.1.begin ∨ a.1.splitEnd ≤ i →
    after.refs.x[i]? = before.refs.x[i]? ∧ after.refs.y[i]? = before.refs.y[i]? ∧ after.refs.z[i]? = before.refs.z[i]?

end Rtbvh
