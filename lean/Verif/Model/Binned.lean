import Verif.Model.Utils
/- Model of src/builders/binned_sah.rs and of the node allocator of src/builders/mod.rs. -/
namespace Rtbvh
open FloatOps
variable {F : Type}

/-- What a builder knows about the scene and its settings (src/builders/binned_sah.rs 294-318).  The user's
primitives are modelled by the values of `center()`; `aabbs` is the slice of boxes. -/
structure BinnedCtx (F : Type) where
  aabbs : List (Aabb F)
  centers : List (Vec3 F)
  maxDepth : Nat
  binCount : Nat
  maxLeafSize : Nat
  traversalCost : F
deriving Repr

/-- `BinnedSahBuilder::new` (src/builders/binned_sah.rs 305-318); `ppl` is `primitives_per_leaf`. -/
def BinnedCtx.new [FloatOps F] (aabbs : List (Aabb F)) (centers : List (Vec3 F)) (ppl : Option Nat) :
    BinnedCtx F :=
  { aabbs := aabbs, centers := centers, maxDepth := 64, binCount := 16, maxLeafSize := ppl.getD 1
    traversalCost := one }

/-- `SahBin` (src/builders/binned_sah.rs 13-17); `right_cost` is kept separately, see `sweepRight`. -/
structure SahBin (F : Type) where
  aabb : Aabb F
  primCount : Nat
deriving Repr

/-- `SahSplit` (src/builders/binned_sah.rs 20-23). -/
structure SahSplit (F : Type) where
  cost : F
  count : Nat
deriving Repr

variable [FloatOps F]

/-- The backward sweep of `find_split` (src/builders/binned_sah.rs 83-92) over a suffix of the bins: accumulated
box, accumulated count and the list of `right_cost`s of that suffix. -/
def sweepRight : List (SahBin F) → Aabb F × Nat × List F
  | [] => (Aabb.empty, 0, [])
  | b :: bs =>
    let (bx, c, cs) := sweepRight bs
    let bx := bx.growBB b.aabb
    let c := c + b.primCount
    (bx, c, (bx.halfArea *. ofNat c) :: cs)

/-- The forward sweep of `find_split` (src/builders/binned_sah.rs 94-113): `(bins[i], bins[i+1].right_cost)` pairs
from index `i` on, accumulated box and count, best split so far. -/
def sweepLeft : List (SahBin F × F) → (i : Nat) → Aabb F → Nat → SahSplit F → SahSplit F
  | [], _, _, _, best => best
  | (b, rc) :: rest, i, bx, c, best =>
    let bx := bx.growBB b.aabb
    let c := c + b.primCount
    let cost := bx.halfArea *. ofNat c +. rc
    let best := if cost <. best.cost then { cost := cost, count := i + 1 } else best
    sweepLeft rest (i + 1) bx c best

/-- `find_split` (src/builders/binned_sah.rs 80-114) for one axis' bins. -/
def findSplit (binCount : Nat) (bins : List (SahBin F)) : SahSplit F :=
  let costs := (sweepRight bins.tail).2.2
  sweepLeft (bins.zip costs) 0 Aabb.empty 0 { cost := maxFinite, count := binCount }

/-- `compute_bin_index` (src/builders/binned_sah.rs 119-128). -/
def computeBinIndex (center : Vec3 F) (binCount : Nat) (binOffset centerToBin : Vec3 F) (axis : Fin 3) : Nat :=
  let b := center.get axis *. centerToBin.get axis +. binOffset.get axis
  Min.min (binCount - 1) (toNat (FloatOps.max b zero))

/-- One iteration of the bin filling loop (src/builders/binned_sah.rs 157-172) for primitive `p`: the inner loop
over the three axes touches one array each.  `none`: primitive id out of range.  The bin index is below `bin_count`
by construction, so `List.modify` never ignores an update. -/
def fillBin (ctx : BinnedCtx F) (binOffset centerToBin : Vec3 F) (bins : Fin 3 → List (SahBin F)) (p : Nat) :
    Option (Fin 3 → List (SahBin F)) :=
  match ctx.centers[p]?, ctx.aabbs[p]? with
  | some c, some bb =>
    some fun axis =>
      (bins axis).modify (computeBinIndex c ctx.binCount binOffset centerToBin axis)
        fun b => { aabb := b.aabb.growBB bb, primCount := b.primCount + 1 }
  | _, _ => none

/-- Bin filling (src/builders/binned_sah.rs 149-172) over the task's slice of primitive ids. -/
def fillBins (ctx : BinnedCtx F) (binOffset centerToBin : Vec3 F) (slice : List Nat) :
    Option (Fin 3 → List (SahBin F)) :=
  slice.foldlM (fillBin ctx binOffset centerToBin)
    (fun _ => List.replicate ctx.binCount { aabb := Aabb.empty, primCount := 0 })

/-- The median fallback loop (src/builders/binned_sah.rs 197-205): the `split_index` found, if any. -/
def fallbackLoop (threshold : Nat) : List (SahBin F) → (i count : Nat) → Option Nat
  | [], _, _ => none
  | b :: bs, i, count =>
    let count := count + b.primCount
    if count ≥ threshold then some (i + 1) else fallbackLoop threshold bs (i + 1) count

/-- What a task decides: make its node a leaf (with the possibly permuted slice of ids), or split with `mid` ids
going left and the two child boxes. -/
inductive BinnedOutcome (F : Type)
  | leaf (slice : List Nat)
  | split (slice : List Nat) (mid : Nat) (leftBox rightBox : Aabb F)

/-- `make_leaf`'s second padding and the first padding of `run` (src/builders/binned_sah.rs 133, 135). -/
def pad (b : Aabb F) : Aabb F := b.offsetBy (lit 1 (-4))

/-- The cheapest axis (src/builders/binned_sah.rs 179-185). -/
def pickAxis (best : Fin 3 → SahSplit F) : Fin 3 :=
  let axis : Fin 3 := if (best 0).cost >. (best 1).cost then 1 else 0
  if (best axis).cost >. (best 2).cost then 2 else axis

/-- The choice of axis, split index and (if the cost check fails and the node is too large) of the median fallback
(src/builders/binned_sah.rs 174-210).  `bounds` is the padded node box, `n` the work size.  `none` = make a leaf
(line 207).  Result: axis, split index, and the count `best_splits[best_axis].count` used for the left box
(line 233). -/
def chooseSplit (ctx : BinnedCtx F) (bounds : Aabb F) (n : Nat) (bins : Fin 3 → List (SahBin F)) :
    Option (Fin 3 × Nat × Nat) :=
  let best : Fin 3 → SahSplit F := fun a => findSplit ctx.binCount (bins a)
  let axis : Fin 3 := pickAxis best
  let splitIndex := (best axis).count
  let maxSplitCost := bounds.halfArea *. (ofNat n -. ctx.traversalCost)
  if (best axis).count = ctx.binCount || (best axis).cost >=. maxSplitCost then
    if n > ctx.maxLeafSize then
      let axis := bounds.longestAxis
      let splitIndex := (fallbackLoop (n * 2 / 5 + 1) ((bins axis).take (ctx.binCount - 1)) 0 0).getD splitIndex
      some (axis, splitIndex, (best axis).count)
    else none
  else some (axis, splitIndex, (best axis).count)

/-- `center_to_bin` (src/builders/binned_sah.rs 146) for the padded node box. -/
def centerToBin (ctx : BinnedCtx F) (bounds : Aabb F) : Vec3 F :=
  (Vec3.div (Vec3.splat one) bounds.diagonal).scale (ofNat ctx.binCount)

/-- `bin_offset` (src/builders/binned_sah.rs 147) for the padded node box. -/
def binOffset (ctx : BinnedCtx F) (bounds : Aabb F) : Vec3 F := bounds.min.neg.mul (centerToBin ctx bounds)

/-- The predicate handed to `partition` (src/builders/binned_sah.rs 214-219): the primitive's bin lies left of the
split.  The closure indexes `primitives[i]`; an id out of range has already panicked in the filling loop, so the
`false` branch is never used. -/
def goesLeft (ctx : BinnedCtx F) (bounds : Aabb F) (axis : Fin 3) (splitIndex i : Nat) : Bool :=
  match ctx.centers[i]? with
  | some c => decide (computeBinIndex c ctx.binCount (binOffset ctx bounds) (centerToBin ctx bounds) axis < splitIndex)
  | none => false

/-- `left_box` / `right_box` (src/builders/binned_sah.rs 229-239): union of a range of bins. -/
def binsBox (bins : List (SahBin F)) : Aabb F := bins.foldl (fun acc b => acc.growBB b.aabb) Aabb.empty

/-- The decision part of `BinnedSahBuildTask::run` (src/builders/binned_sah.rs 132-282) as a function of the node's
box (before the first padding), the slice of ids and the depth.  `none` = panic. -/
def binnedDecide (ctx : BinnedCtx F) (bounds0 : Aabb F) (slice : List Nat) (depth : Nat) :
    Option (BinnedOutcome F) :=
  if slice.length ≤ 1 ∨ depth ≥ ctx.maxDepth then some (.leaf slice) else
  match fillBins ctx (binOffset ctx (pad bounds0)) (centerToBin ctx (pad bounds0)) slice with
  | none => none
  | some bins =>
    match chooseSplit ctx (pad bounds0) slice.length bins with
    | none => some (.leaf slice)
    | some (axis, splitIndex, leftCount) =>
      match partition slice 0 slice.length (goesLeft ctx (pad bounds0) axis splitIndex) with
      | none => none
      | some (mid, slice') =>
        if 0 < mid ∧ mid < slice.length then
          some (.split slice' mid (binsBox ((bins axis).take leftCount)) (binsBox ((bins axis).drop splitIndex)))
        else some (.leaf slice')

/-- A build task (src/builders/binned_sah.rs 34-44): the node it owns and its range of the shared id array. -/
structure BinnedTask where
  node : Nat
  begin : Nat
  stop : Nat
  depth : Nat
deriving DecidableEq, Repr

/-- Progress of a task: not started, or past `allocator.allocate()` (src/builders/binned_sah.rs 224) which returned
the pair starting at `left`. -/
inductive TaskPhase
  | ready
  | allocated (left : Nat)
deriving DecidableEq, Repr

/-- Shared state of a build: node array, allocation counter, id array and the tasks not finished yet. -/
structure BinnedState (F : Type) where
  nodes : List (BvhNode F)
  counter : Nat
  prims : List Nat
  pending : List (BinnedTask × TaskPhase)

/-- Result of one allocation: a pair of nodes `left, left + 1`; `None`; or a reference past the end of the buffer
(`UnsafeSliceWrapper::get_mut` does not check in release builds, src/utils.rs 139-142). -/
inductive Alloc
  | pair (left : Nat)
  | exhausted
  | outOfBounds
deriving DecidableEq, Repr

/-- `AtomicNodeStack::allocate` (src/builders/mod.rs 59-76): one atomic `fetch_add(2)`, then checks on the value it
returned.  Result and new counter value. -/
def allocate (len counter : Nat) : Alloc × Nat :=
  (if len ≤ counter then .exhausted else if counter + 1 < len then .pair counter else .outOfBounds, counter + 2)

/-- Sub-slice `l[b..e]`. -/
def sliceOf {α : Type} (l : List α) (b e : Nat) : List α := (l.drop b).take (e - b)
/-- Overwrite `l` from `b` on with `xs` (the task's `&mut` sub-slice written back). -/
def writeAt {α : Type} (l : List α) (b : Nat) (xs : List α) : List α := l.take b ++ xs ++ l.drop (b + xs.length)

/-- `make_leaf` on the task's node (src/builders/binned_sah.rs 133-138), including the first padding. -/
def leafNode (nd : BvhNode F) (begin stop : Nat) : BvhNode F :=
  (({ bounds := pad (pad nd.bounds) } : BvhNode F).setLeftFirst (some begin)).setCount (some (stop - begin))

/-- One atomic step of task `t` in phase `phase`, whose `&mut` sub-slice of the id array currently holds `slice`.
A leaf decision finishes the task; a split decision first allocates (one atomic `fetch_add`), then a second step
writes the nodes and the id slice and spawns the two child tasks (src/builders/binned_sah.rs 132-282).
Result: new node array, new counter, new contents of the sub-slice, tasks to continue with.
The writes touch only the task's own node, its own id range and its two new nodes, which no other task reads, so
treating each phase as atomic loses no behaviour.
`none` = panic (index out of range or `unwrap` on a failed allocation). -/
def taskStep (ctx : BinnedCtx F) (nodes : List (BvhNode F)) (counter : Nat) (slice : List Nat) (t : BinnedTask)
    (phase : TaskPhase) : Option (List (BvhNode F) × Nat × List Nat × List (BinnedTask × TaskPhase)) :=
  match nodes[t.node]? with
  | none => none
  | some nd =>
    match binnedDecide ctx nd.bounds slice t.depth with
    | none => none
    | some (.leaf sl) => some (nodes.set t.node (leafNode nd t.begin t.stop), counter, sl, [])
    | some (.split sl mid lb rb) =>
      match phase with
      | .ready =>
        match allocate nodes.length counter with
        | (.pair left, c) => some (nodes, c, slice, [(t, .allocated left)])
        | (_, _) => none
      | .allocated left =>
        match nodes[left]?, nodes[left + 1]? with
        | some ln, some rn =>
          let parent := (({ bounds := pad nd.bounds } : BvhNode F).setLeftFirst (some left)).setCount none
          some (((nodes.set t.node parent).set left { ln with bounds := lb }).set (left + 1)
              { rn with bounds := rb },
            counter, sl,
            [({ node := left, begin := t.begin, stop := t.begin + mid, depth := t.depth + 1 }, .ready),
             ({ node := left + 1, begin := t.begin + mid, stop := t.stop, depth := t.depth + 1 }, .ready)])
        | _, _ => none

/-- One atomic step of pending task number `k` on the shared state.  A choice `k` that names no pending task leaves
the state alone. -/
def binnedStep (ctx : BinnedCtx F) (s : BinnedState F) (k : Nat) : Option (BinnedState F) :=
  match s.pending[k]? with
  | none => some s
  | some (t, phase) =>
    match taskStep ctx s.nodes s.counter (sliceOf s.prims t.begin t.stop) t phase with
    | none => none
    | some (nodes, counter, sl, new) =>
      some { nodes := nodes, counter := counter, prims := writeAt s.prims t.begin sl
             pending := s.pending.eraseIdx k ++ new }

/-- Run a schedule: a list of choices of the pending task that makes the next atomic step. -/
def binnedExec (ctx : BinnedCtx F) : List Nat → BinnedState F → Option (BinnedState F)
  | [], s => some s
  | k :: ks, s => (binnedStep ctx s k).bind (binnedExec ctx ks)

/-- Start of `BinnedSahBuilder::build` (src/builders/binned_sah.rs 354-372). -/
def binnedInit (ctx : BinnedCtx F) : BinnedState F :=
  let n := ctx.aabbs.length
  { nodes := (List.replicate (n * 2 - 1) BvhNode.new).set 0 { bounds := Aabb.unionOfList ctx.aabbs }
    counter := 1
    prims := (List.range n).map (· % 2 ^ 32)
    pending := [({ node := 0, begin := 0, stop := n, depth := 0 }, .ready)] }

/-- End of `BinnedSahBuilder::build` (src/builders/binned_sah.rs 389-398): shrink the node array and return. -/
def binnedFinish (s : BinnedState F) : Bvh F :=
  { nodes := s.nodes.take s.counter ++ List.replicate (s.counter - s.nodes.length) BvhNode.new
    primIndices := s.prims
    buildType := .binnedSAH }

/-- `BinnedSahBuilder::build` (src/builders/binned_sah.rs 346-399) under a given schedule.  `none`: a task panicked;
`some none`: the schedule stops before all tasks have run (the real code never returns then). -/
def binnedBuild (ctx : BinnedCtx F) (schedule : List Nat) : Option (Option (Bvh F)) :=
  if ctx.centers.length ≠ ctx.aabbs.length ∨ ctx.centers = [] ∨ ctx.aabbs = [] then some (some Bvh.default)
  else
    match binnedExec ctx schedule (binnedInit ctx) with
    | none => none
    | some s => if s.pending = [] then some (some (binnedFinish s)) else some none

end Rtbvh
