import Verif.Model.Spawner
/- Model of `TaskSpawner` (src/utils.rs 189-289) when tasks panic: unwinding of the threads, and the crossbeam scope. -/
namespace Rtbvh

/-- How a thread stands: still in `run_task`, returned from it, or unwound out of it by a panic. -/
inductive Fate
  | running
  | returned
  | panicked
deriving DecidableEq, Repr

/-- One thread: the local variables of `run_task` (src/utils.rs 243-288), see `Worker`. -/
structure UWorker (A : Type) where
  current : Option A
  stack : List A
  handles : List Nat
  fate : Fate
deriving DecidableEq, Repr

/-- The state of a run: shared memory, all threads started so far (number 0 is the caller), and the numbers of the threads
whose result has been taken by a `join`. -/
structure Unwind (S A : Type) where
  shared : S
  workers : List (UWorker A)
  taken : List Nat

variable {S A : Type}

/-- A thread entering `run_task(task, ..)` (src/utils.rs 243-252). -/
def UWorker.start (a : A) : UWorker A := { current := none, stack := [a], handles := [], fate := .running }

/-- A thread that has unwound: its stack of tasks and its join handles are dropped (src/utils.rs 250-252; dropping a
`ScopedJoinHandle` neither joins nor stops the thread). -/
def UWorker.dead : UWorker A := { current := none, stack := [], handles := [], fate := .panicked }

/-- `TaskSpawner::run` enters the crossbeam scope and calls `run_task` (src/utils.rs 235-241). -/
def Unwind.init (shared : S) (a : A) : Unwind S A := { shared := shared, workers := [UWorker.start a], taken := [] }

/-- One turn of thread `i` (src/utils.rs 254-287), as `spawnTurn`, with panics.  With `crash = some sh` the user's code
called by the running task (`center()`, `split()`) panics and leaves the memory `sh`; the thread unwinds.  A task that
panics by itself unwinds the thread as well, and so does `join().unwrap()` (line 286) on a thread that panicked.
`none` means that the thread cannot take a turn; the flag says whether a task panicked in this turn. -/
def unwindTurn (run : S → A → Option (S × Ran A)) (size : A → Nat) (threshold : Nat) (s : Unwind S A) (i : Nat)
    (crash : Option S) : Option (Unwind S A × Bool) :=
  match s.workers[i]? with
  | none => none
  | some w =>
    if w.fate ≠ .running then none
    else
      match w.current, crash with
      | some _, some sh => some ({ s with shared := sh, workers := s.workers.set i .dead }, true)
      | some a, none =>
        match run s.shared a with
        | none => some ({ s with workers := s.workers.set i .dead }, true)
        | some (sh, .finished) =>
          some ({ s with shared := sh, workers := s.workers.set i { w with current := none } }, false)
        | some (sh, .goesOn a') =>
          some ({ s with shared := sh, workers := s.workers.set i { w with current := some a' } }, false)
        | some (sh, .forks a b) =>
          let (big, small) := if size a < size b then (b, a) else (a, b)
          if size big ≤ threshold then
            some ({ s with shared := sh
                           workers := s.workers.set i { w with current := none, stack := big :: small :: w.stack } }, false)
          else
            some ({ s with shared := sh
                           workers := s.workers.set i { w with current := none, stack := small :: w.stack
                                                               handles := s.workers.length :: w.handles } ++
                             [UWorker.start big] }, false)
      | none, some _ => none
      | none, none =>
        match w.stack with
        | a :: st => some ({ s with workers := s.workers.set i { w with current := some a, stack := st } }, false)
        | [] =>
          match w.handles with
          | j :: hs =>
            match s.workers[j]? with
            | none => none
            | some c =>
              match c.fate with
              | .running => none
              | .returned => some ({ s with workers := s.workers.set i { w with handles := hs }, taken := j :: s.taken }, false)
              | .panicked => some ({ s with workers := s.workers.set i .dead, taken := j :: s.taken }, false)
          | [] => some ({ s with workers := s.workers.set i { w with fate := .returned } }, false)

/-- The end of `crossbeam::scope(..).unwrap()` in `TaskSpawner::run` (src/utils.rs 237-240): the scope waits until every
thread has ended (`none` until then), joins the threads nobody has joined, and panics if the closure (thread 0) or one of
those panicked; otherwise `run` returns.  (`crossbeam::scope`: the closure's panic is caught, all threads are joined, the
panic is resumed, or the panics of the joined threads are returned as `Err`.) -/
def Unwind.outcome (s : Unwind S A) : Option Bool :=
  if s.workers.any (fun w => w.fate = .running) then none
  else some (!(s.workers.zipIdx.any fun (w, i) => w.fate = .panicked && (i == 0 || !s.taken.contains i)))

end Rtbvh
