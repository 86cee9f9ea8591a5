import Verif.Model.Locb
import Verif.Model.SpatialSpawner
import Verif.Model.Mbvh
/- Builds with debug assertions: the functions whose `debug_assert!`s (or checked integer subtractions) check something
a release build does not check.  `none` (`.error .panic`) is, as everywhere, a panic; here a failed assertion is one as
well.  The other debug assertions of the crate (src/utils.rs 43-44, 80, 132, 166-167, src/bvh.rs 212) check what the
release model already reports as a failure (an index or slice end out of range); src/ray.rs 119, src/mbvh_node.rs 162 and
src/morton.rs 37, 68 compare arguments which the crate's own callers pass as literals or have compared before. -/
namespace Rtbvh
variable {F : Type} [FloatOps F]
open FloatOps

/-- `f32::is_infinite` (used in src/builders/locb.rs 101, 113). -/
def isInfinite (x : F) : Bool := (maxFinite : F) <. FloatOps.abs x

/-- `debug_assert!(c)` followed by `r` (as in src/builders/locb.rs 101). -/
def dbg {α : Type} (c : Bool) (r : Option α) : Option α := if c then r else none

/-- `searchOne` with the assertions of src/builders/locb.rs 101, 112-119 and 129. -/
def searchOneD (r : Nat) (input : List (BvhNode F)) (b e i : Nat) (m : DistMat F) : Option (DistMat F × Best F) :=
  (forRange (fun j best => (m.read (i - j) (i - j - 1)).bind fun d => dbg (!isInfinite d) (some (best.offer d j)))
    (i - (searchRange r i b e).1) (searchRange r i b e).1 (⟨maxFinite, -1⟩ : Best F)).bind fun best =>
  (forRange (fun j (s : DistMat F × Best F) =>
      (pairDist input i j).bind fun d => dbg (!isInfinite d)
        ((s.1.write 0 (j - i - 1) d).map fun m => (m, s.2.offer d j)))
    ((searchRange r i b e).2 - (i + 1)) (i + 1) (m, best)).bind fun s =>
  dbg (decide (s.2.neighbour ≠ -1)) (some s)

/-- `searchChunk` (src/builders/locb.rs 71-143) with assertions. -/
def searchChunkD (r : Nat) (input : List (BvhNode F)) (b e cb ce : Nat) (aux : List Nat) : Option (List Nat) :=
  (fillMatrix r input b e cb (List.replicate (r + 1) (List.replicate r zero))).bind fun m =>
  (forRange (fun i (s : DistMat F × List Nat) =>
      (searchOneD r input b e i s.1).bind fun mb =>
      (setAt s.2 i (asU32 mb.2.neighbour)).bind fun aux =>
      (mb.1.rotate r).map fun m => (m, aux))
    (ce - cb) cb (m, aux)).map Prod.snd

/-- `searchAll` (src/builders/locb.rs 58-69, 144) with assertions. -/
def searchAllD (r t : Nat) (input : List (BvhNode F)) (b e : Nat) (aux : List Nat) : Option (List Nat) :=
  let chunkSize := (e - b) / t
  forRange (fun id aux =>
      let cb := b + id * chunkSize
      let ce := if id ≠ t - 1 then cb + chunkSize else e
      searchChunkD r input b e cb ce aux) t 0 aux

/-- `cluster` (src/builders/locb.rs 48-245) with assertions. -/
def locbClusterD (r t nc : Nat) (input output : List (BvhNode F)) (aux : List Nat) (b e pe : Nat) :
    Option (List (BvhNode F) × List Nat × Nat × Nat) :=
  (searchAllD r t input b e aux).bind fun aux =>
  (markMerged nc b e aux).bind fun aux =>
  (sumMerged nc b e aux).bind fun aux =>
  (aux[nc + (e - 1)]?).bind fun merged =>
  (csub (e - b) merged).bind fun unmerged =>
  (csub e (merged * 2)).bind fun chb =>
  (csub e (merged * 2 + unmerged)).bind fun ub =>
  (forRange (mergeOne nc input aux b ub chb) (e - b) b output).bind fun out =>
  (forRange (fun x out => (input[x]?).bind fun nd => setAt out x nd) (pe - e) e out).map fun out =>
  (out, aux, ub, chb)

/-- The loop of `build` (src/builders/locb.rs 303-319) with assertions. -/
def locbLoopD (r t nc : Nat) : (fuel : Nat) → (nodes copy : List (BvhNode F)) → (aux : List Nat) → (b e pe : Nat) →
    Option (Option (List (BvhNode F)))
  | 0, nodes, _, _, b, e, _ => if e - b > 1 then some none else some (some nodes)
  | fuel + 1, nodes, copy, aux, b, e, pe =>
    if e - b > 1 then
      (locbClusterD r t nc nodes copy aux b e pe).bind fun s => locbLoopD r t nc fuel s.1 nodes s.2.1 s.2.2.1 s.2.2.2 e
    else some (some nodes)

/-- `build` (src/builders/locb.rs 249-328) with assertions. -/
def locbBuildD (t fuel : Nat) (aabbs : List (Aabb F)) (centers : List (Vec3 F)) : Option (Option (Bvh F)) :=
  let worldBounds := Aabb.unionOfList aabbs
  let encoder := MortonEncoder.new worldBounds MortonEncoder.maxGridDim
  if centers.length ≠ aabbs.length ∨ centers = [] ∨ aabbs = [] then some (some Bvh.default)
  else
    let n := aabbs.length
    if n ≤ 2 then
      some (some { nodes := [(({ bounds := worldBounds } : BvhNode F).setLeftFirst (some 0)).setCount (some n)]
                   primIndices := List.range n, buildType := .locallyOrderedClustered })
    else
      (encoder.getSortedIndices aabbs centers).bind fun sorted =>
      let nc := 2 * n - 1
      let empty : BvhNode F :=
        (({ bounds := Aabb.ofPoints2 (Vec3.splat zero) (Vec3.splat zero) } : BvhNode F).setCount none).setLeftFirst
          (some 0)
      let nodes := List.replicate nc empty
      (forRange (fun i nodes =>
          (sorted.1[i]?).bind fun p => (locbLeaf aabbs i p).bind fun nd => setAt nodes (nc - n + i) nd)
        n 0 nodes).bind fun leaves =>
      (locbLoopD 14 t nc fuel leaves nodes (List.replicate (nc * 3) nc) (nc - n) nc nc).map fun r =>
        r.map fun nodes => { nodes := nodes, primIndices := sorted.1, buildType := .locallyOrderedClustered }

/-- `Builder::construct_locally_ordered_clustered` (src/bvh.rs 113-137) with assertions. -/
def Builder.constructLocbD (b : Builder F) (order : List Nat) (t fuel : Nat) :
    Except BuildError (Option (Option (Bvh F))) :=
  match b.check order with
  | .error e => .error e
  | .ok aabbs => .ok (locbBuildD t fuel aabbs (b.primitives.map Prim.center))

/-! ### The task spawner -/

/-- `spawnTurn` with the assertion of src/utils.rs 256 on the depth of the task that is popped. -/
def spawnTurnD {S A : Type} (run : S → A → Option (S × Ran A)) (size depth : A → Nat) (threshold maxDepth : Nat)
    (s : Spawn S A) (i : Nat) : Turn (Spawn S A) :=
  match s.workers[i]? with
  | none => .blocked
  | some w =>
    if w.done then .blocked
    else
      match w.current with
      | some a =>
        match run s.shared a with
        | none => .panic
        | some (sh, .finished) => .next { shared := sh, workers := s.workers.set i { w with current := none } }
        | some (sh, .goesOn a') => .next { shared := sh, workers := s.workers.set i { w with current := some a' } }
        | some (sh, .forks a b) =>
          let (big, small) := if size a < size b then (b, a) else (a, b)
          if size big ≤ threshold then
            .next { shared := sh, workers := s.workers.set i { w with current := none, stack := big :: small :: w.stack } }
          else
            .next { shared := sh
                    workers := s.workers.set i { w with current := none, stack := small :: w.stack
                                                        handles := s.workers.length :: w.handles } ++ [Worker.start big] }
      | none =>
        match w.stack with
        | a :: st =>
          if depth a ≤ maxDepth then
            .next { s with workers := s.workers.set i { w with current := some a, stack := st } }
          else .panic
        | [] =>
          match w.handles with
          | j :: hs =>
            match s.workers[j]? with
            | some c => if c.done then .next { s with workers := s.workers.set i { w with handles := hs } } else .blocked
            | none => .blocked
          | [] => .next { s with workers := s.workers.set i { w with done := true } }

/-- `max_depth` of `TaskSpawner::new` (src/utils.rs 209-218), which both builders use unchanged
(src/builders/binned_sah.rs 358, src/builders/spatial_sah.rs 988). -/
def spawnerMaxDepth : Nat := 64

/-! ### The spatial builder -/

/-- `sortView` with the assertions of `range` (src/utils.rs 173-180), called in src/builders/spatial_sah.rs 318. -/
def sortViewD (ctx : SpatialCtx F) (view : RefView F) (n : Nat) (isSorted : Bool) : Option (RefView F) :=
  if isSorted then some view
  else dbg (decide (0 < n) && decide (n ≤ view.x.length) && decide (n ≤ view.y.length) && decide (n ≤ view.z.length))
    (sortView ctx view n false)

/-- `spatialSweep` (src/builders/spatial_sah.rs 560-576) with the checked subtraction of line 566. -/
def spatialSweepD (axis : Fin 3) (min binSize : F) : List (SpatialBin F × Aabb F) → (i leftCount rightCount : Nat) →
    Aabb F → SpatialSplit F × Bool → Option (SpatialSplit F × Bool)
  | [], _, _, _, _, best => some best
  | (b, nextBox) :: rest, i, lc, rc, cur, best =>
    let lc := lc + b.entry
    (csub rc b.exit).bind fun rc =>
    let cur := cur.growBB b.aabb
    let cost := ofNat lc *. cur.halfArea +. ofNat rc *. nextBox.halfArea
    let best := if cost <. best.1.cost then
      ({ cost := cost, axis := axis, position := min +. ofNat (i + 1) *. binSize }, true) else best
    spatialSweepD axis min binSize rest (i + 1) lc rc cur best

/-- `run_binning_pass` (src/builders/spatial_sah.rs 498-583) with checked subtractions. -/
def runBinningPassD (ctx : SpatialCtx F) (refs : List (Ref F)) (split : SpatialSplit F) (axis : Fin 3) (min max : F) :
    Option (SpatialSplit F × Option (F × F)) :=
  let binSize := (max -. min) /. ofNat ctx.binCount
  let invSize := one /. binSize
  match binRefs ctx axis min binSize invSize refs (List.replicate ctx.binCount ⟨Aabb.empty, 0, 0⟩) with
  | none => none
  | some bins =>
    let acc := accBoxes (bins.map SpatialBin.aabb)
    let bins := bins.zipWith (fun b a => { b with aabb := a }) acc
    (spatialSweepD axis min binSize (bins.zip acc.tail) 0 0 refs.length Aabb.empty (split, false)).map fun s =>
      (s.1, if s.2 then some (s.1.position -. binSize, s.1.position +. binSize) else none)

/-- The passes over one axis (src/builders/spatial_sah.rs 593-602), checked. -/
def binningPassesD (ctx : SpatialCtx F) (refs : List (Ref F)) (axis : Fin 3) : (k : Nat) → (min max : F) →
    SpatialSplit F → Option (SpatialSplit F)
  | 0, _, _, split => some split
  | k + 1, lo, hi, split =>
    match runBinningPassD ctx refs split axis lo hi with
    | none => none
    | some (split, none) => some split
    | some (split, some (lo', hi')) => binningPassesD ctx refs axis k lo' hi' split

/-- `find_spatial_split` (src/builders/spatial_sah.rs 585-606), checked. -/
def findSpatialSplitD (ctx : SpatialCtx F) (bounds : Aabb F) (refs : List (Ref F)) : Option (SpatialSplit F) :=
  (binningPassesD ctx refs 0 ctx.binningPassCount (bounds.min.get 0) (bounds.max.get 0) SpatialSplit.default).bind fun s =>
  (binningPassesD ctx refs 1 ctx.binningPassCount (bounds.min.get 1) (bounds.max.get 1) s).bind fun s =>
  binningPassesD ctx refs 2 ctx.binningPassCount (bounds.min.get 2) (bounds.max.get 2) s

/-- The loop over straddling references (src/builders/spatial_sah.rs 677-711) with `right_begin` as the code has it and
checked subtractions (lines 688, 707); `fuel` bounds the number of iterations, and running out of it counts as a panic. -/
def straddleLoopD (prims : List (SpatialPrim F)) (axis : Fin 3) (position : F) : (fuel rightBegin : Nat) → Straddle F →
    Option (Straddle F × Nat)
  | 0, rightBegin, s => if s.leftEnd < rightBegin then none else some (s, rightBegin)
  | fuel + 1, rightBegin, s =>
    if s.leftEnd < rightBegin then
      (s.refs[s.leftEnd]?).bind fun r =>
      (prims[r.primId]?).bind fun p =>
        let (lp, rp) := p.split axis position
        let lp := lp.shrink r.aabb
        let rp := rp.shrink r.aabb
        (csub s.refs.length s.rightEnd).bind fun free =>
        if 0 < free then
          straddleLoopD prims axis position fuel rightBegin
            { leftEnd := s.leftEnd + 1, rightEnd := s.rightEnd + 1, leftCount := s.leftCount + 1
              rightCount := s.rightCount + 1
              refs := (s.refs.set s.rightEnd ⟨rp, rp.center, r.primId⟩).set s.leftEnd ⟨lp, lp.center, r.primId⟩
              leftBox := s.leftBox.growBB lp, rightBox := s.rightBox.growBB rp }
        else if s.leftCount < s.rightCount then
          straddleLoopD prims axis position fuel rightBegin
            { s with leftEnd := s.leftEnd + 1, leftCount := s.leftCount + 1, leftBox := s.leftBox.growBB r.aabb }
        else
          (csub rightBegin 1).bind fun rightBegin =>
          (swapAt s.refs rightBegin s.leftEnd).bind fun refs =>
            straddleLoopD prims axis position fuel rightBegin
              { s with rightCount := s.rightCount + 1, refs := refs, rightBox := s.rightBox.growBB r.aabb }
    else some (s, rightBegin)

/-- `apply_spatial_split` (src/builders/spatial_sah.rs 608-722) up to `allocate_children`, with the assertions of lines
718-719 and checked subtractions.  (In the loop of lines 629-648 `right_begin -= 1` is guarded by `i < right_begin`.) -/
def applySpatialSplitD (ctx : SpatialCtx F) (view : RefView F) (begin n : Nat) (split : SpatialSplit F) :
    Option (SplitResult F) :=
  (sidesLoop split.axis split.position n 0 0 (view.get split.axis) Aabb.empty Aabb.empty).bind fun
    (leftEnd, rightBegin, refs, lb, rb) =>
    (csub n rightBegin).bind fun rightCount =>
    let leftCount := leftEnd
    let start : Option (Straddle F × Nat) :=
      if (leftCount = 0 ∨ rightCount = 0) ∧ leftEnd = rightBegin then
        if 0 < leftCount ∧ leftCount / 2 < begin then none
        else
          let mid := if 0 < leftCount then leftCount / 2 - begin else leftEnd + rightCount / 2
          some (⟨mid, n, leftCount, rightCount, refs, refsBox (refs.take mid), refsBox ((refs.take n).drop mid)⟩, mid)
      else some (⟨leftEnd, n, leftCount, rightCount, refs, lb, rb⟩, rightBegin)
    start.bind fun (st, rightBegin) =>
    (straddleLoopD ctx.prims split.axis split.position rightBegin rightBegin st).bind fun (st, rightBegin) =>
    dbg (decide (st.leftEnd = rightBegin) && decide (st.rightEnd ≤ st.refs.length))
      (some ⟨.ofFn fun a => if a = split.axis then st.refs else st.refs.take st.rightEnd ++ (view.get a).drop st.rightEnd,
        rightBegin, st.rightEnd, st.leftBox, st.rightBox, false⟩)

/-- The checked subtractions of `allocate_children` (src/builders/spatial_sah.rs 389-391), then the move of the references
(400-424): `none` when a subtraction fails, `some none` when the move would leave the task's range. -/
def shiftRightD (r : SplitResult F) : Option (Option (RefView F)) :=
  (csub r.view.x.length r.stop).bind fun _ => (csub r.stop r.mid).map fun _ => shiftRight r

/-- The decision part of `SpatialSahBuildTask::run` (src/builders/spatial_sah.rs 726-812) with assertions. -/
def spatialDecideD (ctx : SpatialCtx F) (threshold : F) (maxRefs : Nat) (bounds : Aabb F) (view : RefView F)
    (begin n depth : Nat) (isSorted : Bool) : Except Fault (SpatialOutcome F) :=
  if n ≤ 1 ∨ depth ≥ ctx.maxDepth then .ok (.leaf view)
  else
    match sortViewD ctx view n isSorted with
    | none => .error .panic
    | some view =>
      let object := findObjectSplit view n
      let overlap := (object.leftBox.shrink object.rightBox).area
      let spatial : Option (SpatialSplit F) :=
        if overlap >. threshold && decide (n < view.x.length) then findSpatialSplitD ctx bounds (view.x.take n)
        else some SpatialSplit.default
      match spatial with
      | none => .error .panic
      | some spatial =>
        let bestCost := FloatOps.min spatial.cost object.cost
        let finish (r : Option (SplitResult F)) : Except Fault (SpatialOutcome F) :=
          match r with
          | none => .error .panic
          | some r =>
            match shiftRightD r with
            | none => .error .panic
            | some none => .error .wildWrite
            | some (some view) => .ok (.split { r with view := view })
        if bestCost >=. (bounds.halfArea *. (ofNat n -. ctx.traversalCost)) then
          if n > ctx.maxLeafSize then
            let axis := bounds.longestAxis
            finish (applyObjectSplit maxRefs view n (n / 2) axis (refsBox (((view.get axis).take n).take (n / 2)))
              (refsBox (((view.get axis).take n).drop (n / 2))))
          else .ok (.leaf view)
        else if bestCost <. object.cost then finish (applySpatialSplitD ctx view begin n spatial)
        else
          match object.index with
          | some s => finish (applyObjectSplit maxRefs view n s object.axis object.leftBox object.rightBox)
          | none => .ok (.leaf view)

/-- One atomic step of a task (src/builders/spatial_sah.rs 726-838) with assertions: also the index assertions of
`UnsafeSliceWrapper::set` and `get_mut` (src/utils.rs 137, 142), which turn a write of the index array or an allocation
outside the arrays into a panic. -/
def spatialTaskStepD (ctx : SpatialCtx F) (threshold : F) (nodes : List (BvhNode F)) (counter refCount : Nat)
    (prims : List Nat) (view : RefView F) (t : SpatialTask) (phase : SpatialPhase) : Except Fault (SpatialEffect F) :=
  match nodes[t.node]? with
  | none => .error .panic
  | some nd =>
    match spatialDecideD ctx threshold prims.length nd.bounds view t.begin (t.stop - t.begin) t.depth t.isSorted with
    | .error f => .error f
    | .ok (.leaf view') =>
      let ids := (view'.x.take (t.stop - t.begin)).map Ref.primId
      match phase with
      | .leafAt first =>
        if prims.length < first + ids.length then .error .panic
        else .ok ⟨nodes.set t.node ((nd.setLeftFirst (some first)).setCount (some (t.stop - t.begin))), counter, refCount,
          writeAt prims first ids, view', []⟩
      | _ => .ok ⟨nodes, counter, refCount + (t.stop - t.begin), prims, view, [(t, .leafAt refCount)]⟩
    | .ok (.split r) =>
      match phase with
      | .allocated left =>
        match nodes[left]?, nodes[left + 1]? with
        | some ln, some rn =>
          let parent := ({ bounds := (((nd.setLeftFirst (some left)).setCount none).bounds).offsetBy (lit 1 (-4)) } : BvhNode F)
          .ok ⟨((nodes.set t.node parent).set left { ln with bounds := r.leftBox }).set (left + 1)
              { rn with bounds := r.rightBox },
            counter, refCount, prims, r.view,
            [({ node := left, begin := t.begin, stop := t.begin + r.mid, splitEnd := t.begin + r.mid
                depth := t.depth + 1, isSorted := r.sorted }, .ready),
             ({ node := left + 1, begin := t.begin + r.mid, stop := t.begin + r.stop, splitEnd := t.splitEnd
                depth := t.depth + 1, isSorted := r.sorted }, .ready)]⟩
        | _, _ => .error .wildWrite
      | _ =>
        match allocate nodes.length counter with
        | (.pair left, c) => .ok ⟨nodes, c, refCount, prims, view, [(t, .allocated left)]⟩
        | (.exhausted, _) => .error .panic
        | (.outOfBounds, _) => .error .panic

/-- One atomic step of pending task number `k` (src/builders/spatial_sah.rs 726-838) with assertions, including the one
on the depth (src/utils.rs 256). -/
def spatialStepD (ctx : SpatialCtx F) (threshold : F) (s : SpatialState F) (k : Nat) : Except Fault (SpatialState F) :=
  match s.pending[k]? with
  | none => .ok s
  | some (t, phase) =>
    if spawnerMaxDepth < t.depth then .error .panic
    else
    match spatialTaskStepD ctx threshold s.nodes s.counter s.refCount s.prims (s.refs.slice t.begin t.splitEnd) t phase with
    | .error f => .error f
    | .ok e =>
      .ok { nodes := e.nodes, counter := e.counter, refs := s.refs.write t.begin e.view, refCount := e.refCount
            prims := e.prims, pending := s.pending.eraseIdx k ++ e.new }

/-- Run a schedule (src/builders/spatial_sah.rs 988-1014) with assertions. -/
def spatialExecD (ctx : SpatialCtx F) (threshold : F) : List Nat → SpatialState F → Except Fault (SpatialState F)
  | [], s => .ok s
  | k :: ks, s =>
    match spatialStepD ctx threshold s k with
    | .error f => .error f
    | .ok s' => spatialExecD ctx threshold ks s'

/-- `SpatialSahBuilder::build` (src/builders/spatial_sah.rs 927-1033) with assertions. -/
def spatialBuildD (ctx : SpatialCtx F) (schedule : List Nat) : Except Fault (Option (Bvh F)) :=
  if ctx.prims.length ≠ ctx.aabbs.length ∨ ctx.prims = [] ∨ ctx.aabbs = [] then .ok (some Bvh.default)
  else
    match spatialExecD ctx (spatialThreshold ctx) schedule (spatialInit ctx) with
    | .error f => .error f
    | .ok s => if s.pending = [] then .ok (some (spatialFinish s)) else .ok none

/-- `Builder::construct_spatial_sah` (src/bvh.rs 59-85) with assertions. -/
def Builder.constructSpatialSahD (b : Builder F) (split : Nat → Fin 3 → F → Aabb F × Aabb F)
    (sort : Fin 3 → List (Ref F) → Option (List (Ref F))) (order schedule : List Nat) :
    Except BuildError (Except Fault (Option (Bvh F))) :=
  match b.check order with
  | .error e => .error e
  | .ok aabbs =>
    .ok (spatialBuildD (SpatialCtx.new aabbs (b.primitives.zipIdx.map fun (p, i) => ⟨p.center, split i⟩) b.primitivesPerLeaf sort)
      schedule)

/-! ### The binned builder -/

/-- One atomic step of a binned build (src/builders/binned_sah.rs 131-290) with the assertion on the depth
(src/utils.rs 256); the builder itself has no assertions. -/
def binnedStepD (ctx : BinnedCtx F) (s : BinnedState F) (k : Nat) : Option (BinnedState F) :=
  match s.pending[k]? with
  | none => some s
  | some (t, _) => dbg (decide (t.depth ≤ spawnerMaxDepth)) (binnedStep ctx s k)

/-- Run a schedule (src/builders/binned_sah.rs 358-386) with assertions. -/
def binnedExecD (ctx : BinnedCtx F) : List Nat → BinnedState F → Option (BinnedState F)
  | [], s => some s
  | k :: ks, s => (binnedStepD ctx s k).bind (binnedExecD ctx ks)

/-- `BinnedSahBuilder::build` (src/builders/binned_sah.rs 346-399) with assertions. -/
def binnedBuildD (ctx : BinnedCtx F) (schedule : List Nat) : Option (Option (Bvh F)) :=
  if ctx.centers.length ≠ ctx.aabbs.length ∨ ctx.centers = [] ∨ ctx.aabbs = [] then some (some Bvh.default)
  else
    match binnedExecD ctx schedule (binnedInit ctx) with
    | none => none
    | some s => if s.pending = [] then some (some (binnedFinish s)) else some none

/-- `Builder::construct_binned_sah` (src/bvh.rs 87-111) with assertions. -/
def Builder.constructBinnedSahD (b : Builder F) (order schedule : List Nat) :
    Except BuildError (Option (Option (Bvh F))) :=
  match b.check order with
  | .error e => .error e
  | .ok aabbs =>
    .ok (binnedBuildD (BinnedCtx.new aabbs (b.primitives.map Prim.center) b.primitivesPerLeaf) schedule)

/-! ### Conversion to four-wide nodes -/

/-- `Mbvh::construct_from_raw` (src/bvh.rs 353-379) with the assertion of line 354. -/
def Mbvh.constructFromRawD (fuel : Nat) (nodes : List (BvhNode F)) (primIndices : List Nat) : Option (Mbvh F) :=
  dbg (!nodes.isEmpty) (Mbvh.constructFromRaw fuel nodes primIndices)

end Rtbvh
