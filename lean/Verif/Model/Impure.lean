import Verif.Model.Builder
/- The binned build when `center()` of the user's primitives is not a pure function: every call may give another answer
(src/builders/binned_sah.rs 132-282, where it is called; src/bvh.rs 10-14, where it is declared). -/
namespace Rtbvh
open FloatOps
variable {F : Type}

/-- What the calls of `center()` answer during one task.  The filling loop asks each primitive of the slice once per axis
(src/builders/binned_sah.rs 158-172), `partition` asks each once more (src/builders/binned_sah.rs 214-219, src/utils.rs
87-95: slot `i` is looked at once, and the swaps move only slots already looked at). -/
structure Answers (F : Type) where
  bin : Nat → Fin 3 → Vec3 F
  part : Nat → Vec3 F

variable [FloatOps F]

/-- One iteration of the bin filling loop (src/builders/binned_sah.rs 157-172); as `fillBin`, but the center is asked for
anew for every axis.  Of `ctx.centers` only the length (the number of primitives) is used. -/
def fillBinWith (ctx : BinnedCtx F) (ans : Answers F) (binOffset centerToBin : Vec3 F) (bins : Fin 3 → List (SahBin F))
    (p : Nat) : Option (Fin 3 → List (SahBin F)) :=
  if p < ctx.centers.length then
    match ctx.aabbs[p]? with
    | some bb =>
      some fun axis =>
        (bins axis).modify (computeBinIndex (ans.bin p axis) ctx.binCount binOffset centerToBin axis)
          fun b => { aabb := b.aabb.growBB bb, primCount := b.primCount + 1 }
    | none => none
  else none

/-- Bin filling (src/builders/binned_sah.rs 149-172). -/
def fillBinsWith (ctx : BinnedCtx F) (ans : Answers F) (binOffset centerToBin : Vec3 F) (slice : List Nat) :
    Option (Fin 3 → List (SahBin F)) :=
  slice.foldlM (fillBinWith ctx ans binOffset centerToBin)
    (fun _ => List.replicate ctx.binCount { aabb := Aabb.empty, primCount := 0 })

/-- The predicate handed to `partition` (src/builders/binned_sah.rs 214-219). -/
def goesLeftWith (ctx : BinnedCtx F) (ans : Answers F) (bounds : Aabb F) (axis : Fin 3) (splitIndex i : Nat) : Bool :=
  decide (computeBinIndex (ans.part i) ctx.binCount (binOffset ctx bounds) (centerToBin ctx bounds) axis < splitIndex)

/-- The decision part of `BinnedSahBuildTask::run` (src/builders/binned_sah.rs 132-282), as `binnedDecide`. -/
def binnedDecideWith (ctx : BinnedCtx F) (ans : Answers F) (bounds0 : Aabb F) (slice : List Nat) (depth : Nat) :
    Option (BinnedOutcome F) :=
  if slice.length ≤ 1 ∨ depth ≥ ctx.maxDepth then some (.leaf slice) else
  match fillBinsWith ctx ans (binOffset ctx (pad bounds0)) (centerToBin ctx (pad bounds0)) slice with
  | none => none
  | some bins =>
    match chooseSplit ctx (pad bounds0) slice.length bins with
    | none => some (.leaf slice)
    | some (axis, splitIndex, leftCount) =>
      match partition slice 0 slice.length (goesLeftWith ctx ans (pad bounds0) axis splitIndex) with
      | none => none
      | some (mid, slice') =>
        if 0 < mid ∧ mid < slice.length then
          some (.split slice' mid (binsBox ((bins axis).take leftCount)) (binsBox ((bins axis).drop splitIndex)))
        else some (.leaf slice')

/-- Progress of a task: not started, or past `allocator.allocate()` (src/builders/binned_sah.rs 224), remembering what it
decided before (its slice of the id array is already reordered). -/
inductive WithPhase (F : Type)
  | ready
  | allocated (left mid : Nat) (leftBox rightBox : Aabb F)

/-- Shared state of a build, as `BinnedState`. -/
structure WithState (F : Type) where
  nodes : List (BvhNode F)
  counter : Nat
  prims : List Nat
  pending : List (BinnedTask × WithPhase F)

/-- One atomic step of a task, as `taskStep`; all calls of `center()` happen in the first one and are answered by `ans`
(src/builders/binned_sah.rs 132-282). -/
def taskStepWith (ctx : BinnedCtx F) (ans : Answers F) (nodes : List (BvhNode F)) (counter : Nat) (slice : List Nat)
    (t : BinnedTask) (phase : WithPhase F) :
    Option (List (BvhNode F) × Nat × List Nat × List (BinnedTask × WithPhase F)) :=
  match nodes[t.node]? with
  | none => none
  | some nd =>
    match phase with
    | .ready =>
      match binnedDecideWith ctx ans nd.bounds slice t.depth with
      | none => none
      | some (.leaf sl) => some (nodes.set t.node (leafNode nd t.begin t.stop), counter, sl, [])
      | some (.split sl mid lb rb) =>
        match allocate nodes.length counter with
        | (.pair left, c) => some (nodes, c, sl, [(t, .allocated left mid lb rb)])
        | (_, _) => none
    | .allocated left mid lb rb =>
      match nodes[left]?, nodes[left + 1]? with
      | some ln, some rn =>
        let parent := (({ bounds := pad nd.bounds } : BvhNode F).setLeftFirst (some left)).setCount none
        some (((nodes.set t.node parent).set left { ln with bounds := lb }).set (left + 1) { rn with bounds := rb },
          counter, slice,
          [({ node := left, begin := t.begin, stop := t.begin + mid, depth := t.depth + 1 }, .ready),
           ({ node := left + 1, begin := t.begin + mid, stop := t.stop, depth := t.depth + 1 }, .ready)])
      | _, _ => none

/-- One atomic step of pending task number `k`, as `binnedStep` (src/builders/binned_sah.rs 132-282). -/
def withStep (ctx : BinnedCtx F) (s : WithState F) (k : Nat) (ans : Answers F) : Option (WithState F) :=
  match s.pending[k]? with
  | none => some s
  | some (t, phase) =>
    match taskStepWith ctx ans s.nodes s.counter (sliceOf s.prims t.begin t.stop) t phase with
    | none => none
    | some (nodes, counter, sl, new) =>
      some { nodes := nodes, counter := counter, prims := writeAt s.prims t.begin sl
             pending := s.pending.eraseIdx k ++ new }

/-- Run a history: who makes the next atomic step, and what `center()` answers during it. -/
def withExec (ctx : BinnedCtx F) : List (Nat × Answers F) → WithState F → Option (WithState F)
  | [], s => some s
  | (k, ans) :: es, s => (withStep ctx s k ans).bind (withExec ctx es)

/-- Start of `BinnedSahBuilder::build` (src/builders/binned_sah.rs 354-372). -/
def withInit (ctx : BinnedCtx F) : WithState F :=
  { nodes := (binnedInit ctx).nodes, counter := 1, prims := (binnedInit ctx).prims
    pending := [({ node := 0, begin := 0, stop := ctx.aabbs.length, depth := 0 }, .ready)] }

/-- End of `BinnedSahBuilder::build` (src/builders/binned_sah.rs 389-398). -/
def withFinish (s : WithState F) : Bvh F :=
  { nodes := s.nodes.take s.counter ++ List.replicate (s.counter - s.nodes.length) BvhNode.new
    primIndices := s.prims
    buildType := .binnedSAH }

/-- `Builder::construct_binned_sah` (src/bvh.rs 87-111, src/builders/binned_sah.rs 346-399) for primitives whose `center()`
answers as the history says; result as for `Builder.constructBinnedSah`. -/
def Builder.constructBinnedWith (b : Builder F) (order : List Nat) (es : List (Nat × Answers F)) :
    Except BuildError (Option (Option (Bvh F))) :=
  match b.check order with
  | .error e => .error e
  | .ok aabbs =>
    let ctx := BinnedCtx.new aabbs (b.primitives.map Prim.center) b.primitivesPerLeaf
    .ok <|
      if ctx.centers.length ≠ ctx.aabbs.length ∨ ctx.centers = [] ∨ ctx.aabbs = [] then some (some Bvh.default)
      else
        match withExec ctx es (withInit ctx) with
        | none => none
        | some s => if s.pending.isEmpty then some (some (withFinish s)) else some none

end Rtbvh
