import Verif.Model.Binned
/- Model of `TaskSpawner` (src/utils.rs 189-289). -/
namespace Rtbvh

/-- Outcome of letting a task run for one atomic step: `Task::run` returned `None`, it is still running (its next
atomic step is described by the new task value), or it returned `Some((a, b))` (trait `Task`, src/utils.rs 201-205). -/
inductive Ran (A : Type)
  | finished
  | goesOn (a : A)
  | forks (a b : A)
deriving DecidableEq, Repr

/-- One worker: the local variables of `run_task` (src/utils.rs 243-288).  `current` is the task it is running,
`stack` its stack of tasks (top first), `handles` the join handles `sub_tasks` (last pushed first), `done` says that
`run_task` has returned.  `threads_in_flight` is never read and is left out. -/
structure Worker (A : Type) where
  current : Option A
  stack : List A
  handles : List Nat
  done : Bool
deriving DecidableEq, Repr

/-- The state of a run: the memory shared by the tasks and all threads started so far (number 0 is the caller). -/
structure Spawn (S A : Type) where
  shared : S
  workers : List (Worker A)

/-- Result of giving one thread a turn. -/
inductive Turn (α : Type)
  | panic
  | blocked
  | next (s : α)

/-- A thread entering `run_task(task, ..)` (src/utils.rs 243-252). -/
def Worker.start {A : Type} (a : A) : Worker A := { current := none, stack := [a], handles := [], done := false }

/-- `TaskSpawner::run` enters the crossbeam scope and calls `run_task` (src/utils.rs 235-241). -/
def Spawn.init {S A : Type} (shared : S) (a : A) : Spawn S A := { shared := shared, workers := [Worker.start a] }

/-- One turn of thread `i`.  In order of the code of `run_task` (src/utils.rs 254-287):
an unfinished `work_item.run()` makes its next atomic step; when it returns two tasks they are swapped if the first is
the smaller one, the second goes to the stack, and the first goes to the stack too unless its size exceeds
the threshold, in which case a new thread is started for it; with no running task the next one is popped;
with an empty stack the last handle is joined, which waits until that thread has returned; with no handles left
`run_task` returns.  A panicking task makes `join().unwrap()` and hence the whole run panic.
The `debug_assert!` on the depth (line 256) is in `spawnTurnD` (Model/Debug). -/
def spawnTurn {S A : Type} (run : S → A → Option (S × Ran A)) (size : A → Nat) (threshold : Nat) (s : Spawn S A)
    (i : Nat) : Turn (Spawn S A) :=
  match s.workers[i]? with
  | none => .blocked
  | some w =>
    if w.done then .blocked
    else
      match w.current with
      | some a =>
        match run s.shared a with
        | none => .panic
        | some (sh, .finished) => .next { shared := sh, workers := s.workers.set i { w with current := none } }
        | some (sh, .goesOn a') => .next { shared := sh, workers := s.workers.set i { w with current := some a' } }
        | some (sh, .forks a b) =>
          let (big, small) := if size a < size b then (b, a) else (a, b)
          if size big ≤ threshold then
            .next { shared := sh, workers := s.workers.set i { w with current := none, stack := big :: small :: w.stack } }
          else
            .next { shared := sh
                    workers := s.workers.set i { w with current := none, stack := small :: w.stack
                                                        handles := s.workers.length :: w.handles } ++ [Worker.start big] }
      | none =>
        match w.stack with
        | a :: st => .next { s with workers := s.workers.set i { w with current := some a, stack := st } }
        | [] =>
          match w.handles with
          | j :: hs =>
            match s.workers[j]? with
            | some c => if c.done then .next { s with workers := s.workers.set i { w with handles := hs } } else .blocked
            | none => .blocked
          | [] => .next { s with workers := s.workers.set i { w with done := true } }

/-- The memory shared by the tasks of the binned build: node array, allocation counter, id array. -/
abbrev BinnedShared (F : Type) := List (BvhNode F) × Nat × List Nat

/-- The binned build task (src/builders/binned_sah.rs 131-290) as a task of the spawner. -/
def binnedRun {F : Type} [FloatOps F] (ctx : BinnedCtx F) (sh : BinnedShared F) (a : BinnedTask × TaskPhase) :
    Option (BinnedShared F × Ran (BinnedTask × TaskPhase)) :=
  match taskStep ctx sh.1 sh.2.1 (sliceOf sh.2.2 a.1.begin a.1.stop) a.1 a.2 with
  | none => none
  | some (nodes, counter, sl, new) =>
    match new with
    | [] => some ((nodes, counter, writeAt sh.2.2 a.1.begin sl), .finished)
    | [x] => some ((nodes, counter, writeAt sh.2.2 a.1.begin sl), .goesOn x)
    | x :: y :: _ => some ((nodes, counter, writeAt sh.2.2 a.1.begin sl), .forks x y)

/-- `work_size` of the binned build task (src/builders/binned_sah.rs 284-286). -/
def binnedSize (a : BinnedTask × TaskPhase) : Nat := a.1.stop - a.1.begin

/-- `BinnedSahBuilder::build` up to the call of the spawner (src/builders/binned_sah.rs 354-386). -/
def binnedSpawn {F : Type} [FloatOps F] (ctx : BinnedCtx F) : Spawn (BinnedShared F) (BinnedTask × TaskPhase) :=
  Spawn.init ((binnedInit ctx).nodes, (binnedInit ctx).counter, (binnedInit ctx).prims)
    ({ node := 0, begin := 0, stop := ctx.aabbs.length, depth := 0 }, .ready)

end Rtbvh
