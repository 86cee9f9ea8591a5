import Verif.Model.Spawner
/- Specification vocabulary: executions of the task spawner, and abstract tasks given by a tree. -/
namespace Rtbvh
variable {S A : Type}

/-- `SpawnRun … k s s'`: `k` turns, of threads chosen in any way, lead from `s` to `s'`. -/
inductive SpawnRun (run : S → A → Option (S × Ran A)) (size : A → Nat) (threshold : Nat) :
    Nat → Spawn S A → Spawn S A → Prop
  | refl (s) : SpawnRun run size threshold 0 s s
  | step {k s s' s''} (i : Nat) : SpawnRun run size threshold k s s' →
      spawnTurn run size threshold s' i = .next s'' → SpawnRun run size threshold (k + 1) s s''

/-- The caller's thread has returned from `run_task`, so `TaskSpawner::run` returns. -/
def Spawn.Returned (s : Spawn S A) : Prop := ∃ w, s.workers[0]? = some w ∧ w.done = true

/-- A tree of labelled tasks: running a task emits its label; a fork then returns its two sub-tasks. -/
inductive TaskTree (α : Type)
  | leaf (a : α)
  | fork (a : α) (l r : TaskTree α)
deriving Repr

/-- All labels of the tree. -/
def TaskTree.labels {α : Type} : TaskTree α → List α
  | .leaf a => [a]
  | .fork a l r => a :: (l.labels ++ r.labels)

/-- Running a labelled task appends its label to the common log. -/
def treeRun {α : Type} (log : List α) : TaskTree α → Option (List α × Ran (TaskTree α))
  | .leaf a => some (log ++ [a], .finished)
  | .fork a l r => some (log ++ [a], .forks l r)

end Rtbvh
