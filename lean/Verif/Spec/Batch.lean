import Verif.Model.Batch
/- What it means that tracing a buffer in parallel gives `out`. -/
namespace Rtbvh
variable {σ τ ι : Type}

/-- Under every schedule: no task panics; at most `bound` steps are made; when all tasks are through the buffer is `out`; as
long as they are not, some task can make a step. -/
def ParallelGives (c : Tracer σ τ ι) (width : Nat) (rays out : List σ) (bound : Nat) : Prop :=
  ∀ schedule s, batchRun c width rays schedule = some s →
    ¬ s.Panicked ∧ schedule.length ≤ bound ∧ (s.Finished → s.rays = out) ∧
    (¬ s.Finished → ∃ k s', batchStep c s k = some s')

end Rtbvh
