import Verif.Model.Next
import Verif.Model.Triangle
/- Tracing a whole buffer of rays or packets: examples/benchmark.rs 14-70.  The parallel branch is
`rays.par_chunks_mut(WIDTH).for_each(|chunk| for ray in chunk { for (t, ray) in bvh.iter(ray, triangles) { .. } })`: rayon
cuts the buffer into chunks of `WIDTH` and works on them from several threads, which share the BVH, the triangles and the
buffer.  Here every chunk has a task of its own and any interleaving of the tasks is possible; with fewer threads than
chunks rayon runs some of these interleavings only.  (The timer and the discarded results are left out.) -/
namespace Rtbvh
variable {F σ τ ι P : Type}

/-- The iterator of the inner loop and its body: how the iterator is made from the ray, a round of its `next`, putting the
ray behind its reference, and what the body makes of the ray and the item. -/
structure Tracer (σ τ ι : Type) where
  start : σ → τ
  round : τ → Round τ ι
  set : σ → τ → τ
  body : σ → ι → σ

/-- Where a task is with the ray it is at: the iterator is not made yet; inside `next()`; an item has been handed out and the
body has yet to read the ray; the body has yet to store the ray; the task has panicked. -/
inductive RayPhase (σ τ ι : Type)
  | fresh
  | looping (t : τ)
  | body (x : ι) (t : τ)
  | write (r : σ) (t : τ)
  | panicked
deriving DecidableEq, Repr

/-- A task: `for ray in chunk` has got to position `next` of the buffer; the chunk ends before `stop`
(examples/benchmark.rs 24-30). -/
structure ChunkTask (σ τ ι : Type) where
  next : Nat
  stop : Nat
  phase : RayPhase σ τ ι
deriving DecidableEq, Repr

/-- The buffer shared by all tasks, and the tasks. -/
structure BatchState (σ τ ι : Type) where
  rays : List σ
  tasks : List (ChunkTask σ τ ι)
deriving DecidableEq, Repr

/-- `rays.par_chunks_mut(width)` (examples/benchmark.rs 24, 55): chunk `k` is `rays[k * width .. (k + 1) * width]`, the last
one may be shorter. -/
def chunkTasks (width n : Nat) : List (ChunkTask σ τ ι) :=
  (List.range ((n + width - 1) / width)).map fun k => ⟨k * width, Min.min ((k + 1) * width) n, .fresh⟩

/-- One step of task `k`; `none` if it has finished, or panicked, or there is no such task (examples/benchmark.rs 25-29,
56-60).  Making the iterator and every round of `next` read the ray in the buffer; so does the body; storing the ray the body
leaves is a step of its own. -/
def batchStep (c : Tracer σ τ ι) (s : BatchState σ τ ι) (k : Nat) : Option (BatchState σ τ ι) :=
  match s.tasks[k]? with
  | none => none
  | some w =>
    if w.next < w.stop then
      match s.rays[w.next]? with
      | none => none
      | some r =>
        match w.phase with
        | .fresh => some { s with tasks := s.tasks.set k { w with phase := .looping (c.start r) } }
        | .looping t =>
          match c.round (c.set r t) with
          | .done => some { s with tasks := s.tasks.set k { w with next := w.next + 1, phase := .fresh } }
          | .panic => some { s with tasks := s.tasks.set k { w with phase := .panicked } }
          | .cont t' => some { s with tasks := s.tasks.set k { w with phase := .looping t' } }
          | .yield x t' => some { s with tasks := s.tasks.set k { w with phase := .body x t' } }
        | .body x t => some { s with tasks := s.tasks.set k { w with phase := .write (c.body r x) t } }
        | .write r' t => some { rays := s.rays.set w.next r', tasks := s.tasks.set k { w with phase := .looping t } }
        | .panicked => none
    else none

/-- The parallel branch under a schedule: the list says which task makes each step; `none` if a task in it cannot
(examples/benchmark.rs 24-30, 55-61). -/
def batchRun (c : Tracer σ τ ι) (width : Nat) (rays : List σ) (schedule : List Nat) : Option (BatchState σ τ ι) :=
  schedule.foldlM (batchStep c) ⟨rays, chunkTasks width rays.length⟩

/-- All tasks are through: `for_each` returns. -/
def BatchState.Finished (s : BatchState σ τ ι) : Prop := ∀ w ∈ s.tasks, w.next = w.stop

/-- Some task has panicked. -/
def BatchState.Panicked (s : BatchState σ τ ι) : Prop := ∃ w ∈ s.tasks, w.phase = .panicked

/-- The sequential branch, `for ray in rays.iter_mut() { .. }` (examples/benchmark.rs 33-37, 63-67): `alone` is the inner
loop over the iterator; `none` if one of these does not end. -/
def traceAll (alone : σ → Run σ ι) : List σ → Option (List σ)
  | [] => some []
  | r :: rs =>
    match (alone r).ending with
    | .finished => (traceAll alone rs).map ((alone r).ray :: ·)
    | _ => none

/-- A loop body that never breaks, such as `let _result = triangle.intersect(ray);` (examples/benchmark.rs 26-28). -/
def noBreak (body : σ → ι → σ) : σ → ι → σ × Bool := fun r x => (body r x, false)

variable [FloatOps F]

/-- `bvh.iter(ray, triangles)` for a `Bvh` and a ray (src/bvh.rs 287-293, examples/benchmark.rs 26). -/
def Bvh.rayTracer (b : Bvh F) (prims : List P) (body : Ray F → P → Ray F) : Tracer (Ray F) (Trav (Ray F)) P where
  start ray := travNew (b.nodes.isEmpty || ray.hasNaN || prims.isEmpty) ray
  round t := (bvhPrimStep b.nodes b.primIndices prims Aabb.intersect closerRay t).toRound
  set := Trav.setRay
  body := body

/-- `bvh.iter(packet, triangles)` for a `Bvh` and a packet (src/bvh.rs 303-309, examples/benchmark.rs 57). -/
def Bvh.packetTracer (b : Bvh F) (prims : List P) (body : RayPacket4 F → P → RayPacket4 F) :
    Tracer (RayPacket4 F) (Trav (RayPacket4 F)) P where
  start p := travNew (b.nodes.isEmpty || p.hasNaN || prims.isEmpty) p
  round t := (bvhPrimStep b.nodes b.primIndices prims Aabb.intersect4 closerPacket t).toRound
  set := Trav.setRay
  body := body

/-- `mbvh.iter(ray, triangles)` (src/bvh.rs 471-477, examples/benchmark.rs 26). -/
def Mbvh.rayTracer (b : Mbvh F) (prims : List P) (body : Ray F → P → Ray F) : Tracer (Ray F) (QTrav (Ray F)) P where
  start ray := qtravNew b.mNodes quadHit ray
  round t := (quadStep b.mNodes b.primIndices (fun id => prims[id]?) quadHit t).toRound
  set := QTrav.setRay
  body := body

/-- `mbvh.iter(packet, triangles)` (src/bvh.rs 487-493, examples/benchmark.rs 57). -/
def Mbvh.packetTracer (b : Mbvh F) (prims : List P) (body : RayPacket4 F → P → RayPacket4 F) :
    Tracer (RayPacket4 F) (QTrav (RayPacket4 F)) P where
  start p := qtravNew b.mNodes quadHit4 p
  round t := (quadStep b.mNodes b.primIndices (fun id => prims[id]?) quadHit4 t).toRound
  set := QTrav.setRay
  body := body

/-- `let _result = triangle.intersect(ray);` (examples/benchmark.rs 27). -/
def benchBody (ray : Ray F) (tri : Triangle F) : Ray F := (tri.intersect ray).1

/-- `let _result = triangle.intersect4(ray, Vec4::splat(1e-4));` (examples/benchmark.rs 58). -/
def benchBody4 (p : RayPacket4 F) (tri : Triangle F) : RayPacket4 F :=
  (tri.intersect4 p (Vec4.splat (FloatOps.lit 1 (-4)))).1

end Rtbvh
