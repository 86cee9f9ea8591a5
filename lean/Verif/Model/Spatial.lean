import Verif.Model.Binned
import Verif.Model.Builder
import Verif.Model.Triangle
/- Model of the build algorithm of src/builders/spatial_sah.rs (lines 247-1033). -/
namespace Rtbvh
open FloatOps
variable {F : Type}

/-- `SpatialReference` (src/builders/spatial_sah.rs 62-67); `SpatialReference::default` (69-77) is `Ref.default`. -/
structure Ref (F : Type) where
  aabb : Aabb F
  center : Vec3 F
  primId : Nat
deriving DecidableEq, Repr

/-- A user primitive as the spatial builder sees it: `center()` and the method `SpatialTriangle::split` (any
implementation; the provided one is `SpatialPrim.ofTriangle`). -/
structure SpatialPrim (F : Type) where
  center : Vec3 F
  split : Fin 3 → F → Aabb F × Aabb F

/-- A primitive using the provided method `split` (src/builders/spatial_sah.rs 85-129). -/
def SpatialPrim.ofTriangle [FloatOps F] (center : Vec3 F) (tr : Triangle F) : SpatialPrim F := ⟨center, tr.split⟩

/-- `SpatialSahBuilder` (src/builders/spatial_sah.rs 849-861).  `sort a l` stands for the call of `slice.sort_by` in
`find_object_split` (lines 318-331) on axis `a`: its comparator (`<`, then `abs(a-b) < 0.0001`) is not a total order, so
the standard library promises only some permutation of the slice, or a panic (`none`).  The theorems hold for every such
function; `refSort` is one. -/
structure SpatialCtx (F : Type) where
  aabbs : List (Aabb F)
  prims : List (SpatialPrim F)
  binningPassCount : Nat
  maxDepth : Nat
  binCount : Nat
  maxLeafSize : Nat
  traversalCost : F
  alpha : F
  splitFactor : F
  sort : Fin 3 → List (Ref F) → Option (List (Ref F))

/-- How an execution can leave the defined behaviour: a Rust panic, or a write through a raw pointer outside the memory
the task owns (`move_backward`, `UnsafeSliceWrapper::set`), which is undefined behaviour. -/
inductive Fault
  | panic
  | wildWrite
deriving DecidableEq, Repr

/-- `Some`/in-bounds or a fault. -/
def orFault {α : Type} (f : Fault) : Option α → Except Fault α
  | some a => .ok a
  | none => .error f

variable [FloatOps F]

/-- `SpatialReference::default()` (src/builders/spatial_sah.rs 69-77). -/
def Ref.default : Ref F := ⟨Aabb.empty, Vec3.splat zero, 0⟩

/-- `SpatialSahBuilder::new` (src/builders/spatial_sah.rs 865-881). -/
def SpatialCtx.new (aabbs : List (Aabb F)) (prims : List (SpatialPrim F)) (ppl : Option Nat)
    (sort : Fin 3 → List (Ref F) → Option (List (Ref F))) : SpatialCtx F :=
  { aabbs := aabbs, prims := prims, binningPassCount := 2, maxDepth := 64, binCount := 16
    maxLeafSize := ppl.getD 1, traversalCost := one, alpha := lit 1 (-5), splitFactor := lit 75 (-2), sort := sort }

/-- The comparator of `find_object_split` (src/builders/spatial_sah.rs 319-330), "not greater". -/
def refNotGreater (axis : Fin 3) (a b : Ref F) : Bool :=
  a.center.get axis <. b.center.get axis || FloatOps.abs (a.center.get axis -. b.center.get axis) <. lit 1 (-4)

/-- Insert `x` before the first element it is less than. -/
def insertRef (axis : Fin 3) (x : Ref F) : List (Ref F) → List (Ref F)
  | [] => [x]
  | y :: ys => if refNotGreater axis y x then y :: insertRef axis x ys else x :: y :: ys

/-- Stable insertion sort with the code's comparator; used only for concrete examples, on which the comparator is a total
order and therefore any stable sort gives this result. -/
def refSort (axis : Fin 3) (l : List (Ref F)) : Option (List (Ref F)) :=
  some (l.foldl (fun acc x => (insertRef axis x acc)) [])

/-! ### find_object_split -/

/-- `ObjectSplit` (src/builders/spatial_sah.rs 25-44); `index` is relative to the start of the work item. -/
structure ObjectSplit (F : Type) where
  cost : F
  index : Option Nat
  axis : Fin 3
  leftBox : Aabb F
  rightBox : Aabb F

/-- `ObjectSplit::default()` (src/builders/spatial_sah.rs 34-44). -/
def ObjectSplit.default : ObjectSplit F := ⟨maxFinite, none, 0, Aabb.empty, Aabb.empty⟩

/-- The backward loop (src/builders/spatial_sah.rs 337-343): entry `i` is the union of the boxes from `i` on.  The code
stores it in the shared array `accumulated_aabbs`, in the task's own range, and does not compute entry 0. -/
def accBoxes : List (Aabb F) → List (Aabb F)
  | [] => []
  | b :: bs => let t := accBoxes bs; ((t.headD Aabb.empty).growBB b) :: t

/-- The forward loop (src/builders/spatial_sah.rs 345-359) over the pairs (box of reference `i`, accumulated box `i+1`). -/
def objectSweep (axis : Fin 3) (n : Nat) : List (Aabb F × Aabb F) → (i : Nat) → Aabb F → ObjectSplit F → ObjectSplit F
  | [], _, _, best => best
  | (b, acc) :: rest, i, aabb, best =>
    let aabb := aabb.growBB b
    let cost := aabb.halfArea *. ofNat (i + 1) +. acc.halfArea *. ofNat (n - (i + 1))
    let best := if cost <. best.cost then
      { cost := cost, axis := axis, index := some (i + 1), leftBox := aabb, rightBox := acc } else best
    objectSweep axis n rest (i + 1) aabb best

/-- A task's own range of the three reference arrays, `references[axis][begin..split_end]`. -/
structure RefView (F : Type) where
  x : List (Ref F)
  y : List (Ref F)
  z : List (Ref F)
deriving DecidableEq

/-- `references[axis]` (src/builders/spatial_sah.rs 281). -/
def RefView.get (v : RefView F) (a : Fin 3) : List (Ref F) := if a = 0 then v.x else if a = 1 then v.y else v.z
/-- The view with array `f a` for axis `a`. -/
def RefView.ofFn (f : Fin 3 → List (Ref F)) : RefView F := ⟨f 0, f 1, f 2⟩

/-- The sorting part of `find_object_split` (src/builders/spatial_sah.rs 315-333) for a work item of `n` references. -/
def sortView (ctx : SpatialCtx F) (view : RefView F) (n : Nat) (isSorted : Bool) : Option (RefView F) :=
  if isSorted then some view
  else
    match ctx.sort 0 (view.x.take n), ctx.sort 1 (view.y.take n), ctx.sort 2 (view.z.take n) with
    | some a, some b, some c => some ⟨a ++ view.x.drop n, b ++ view.y.drop n, c ++ view.z.drop n⟩
    | _, _, _ => none

/-- `find_object_split` after sorting (src/builders/spatial_sah.rs 335-362). -/
def findObjectSplit (view : RefView F) (n : Nat) : ObjectSplit F :=
  let one (axis : Fin 3) (best : ObjectSplit F) :=
    let boxes := ((view.get axis).take n).map Ref.aabb
    objectSweep axis n (boxes.zip (accBoxes boxes).tail) 0 Aabb.empty best
  one 2 (one 1 (one 0 ObjectSplit.default))

/-! ### find_spatial_split -/

/-- `SpatialSplit` (src/builders/spatial_sah.rs 46-60). -/
structure SpatialSplit (F : Type) where
  cost : F
  position : F
  axis : Fin 3

/-- `SpatialSplit::default()` (src/builders/spatial_sah.rs 52-60). -/
def SpatialSplit.default : SpatialSplit F := ⟨maxFinite, zero, 0⟩

/-- `SpatialBin` (src/builders/spatial_sah.rs 17-23) without the unused field `accumulated_aabb`. -/
structure SpatialBin (F : Type) where
  aabb : Aabb F
  entry : Nat
  exit : Nat

/-- The loop over `bins[first_bin..last_bin]` (src/builders/spatial_sah.rs 536-543): `k` bins left, next bin `j`. -/
def clipLoop (split : Fin 3 → F → Aabb F × Aabb F) (axis : Fin 3) (min binSize : F) :
    (k j : Nat) → Aabb F → List (SpatialBin F) → Aabb F × List (SpatialBin F)
  | 0, _, cur, bins => (cur, bins)
  | k + 1, j, cur, bins =>
    let (lb, rb) := split axis (min +. ofNat (j + 1) *. binSize)
    let lb := lb.shrink cur
    clipLoop split axis min binSize k (j + 1) (cur.shrink rb)
      (bins.modify j fun b => { b with aabb := b.aabb.growBB lb })

/-- The bin of a coordinate (src/builders/spatial_sah.rs 525-528). -/
def spatialBinIndex (binCount : Nat) (invSize min x : F) : Nat :=
  Min.min (binCount - 1) (toNat (FloatOps.max (invSize *. (x -. min)) zero))

/-- The binning loop (src/builders/spatial_sah.rs 523-548): a reference with an invalid box ends it.  `none`: index
panic (primitive id, or `first_bin > last_bin` in the slice expression). -/
def binRefs (ctx : SpatialCtx F) (axis : Fin 3) (min binSize invSize : F) :
    List (Ref F) → List (SpatialBin F) → Option (List (SpatialBin F))
  | [], bins => some bins
  | r :: rs, bins =>
    let first := spatialBinIndex ctx.binCount invSize min (r.aabb.min.get axis)
    let last := spatialBinIndex ctx.binCount invSize min (r.aabb.max.get axis)
    if !r.aabb.isValid then some bins
    else if last < first then none
    else
      let res : Option (Aabb F × List (SpatialBin F)) :=
        if first = last then some (r.aabb, bins)
        else (ctx.prims[r.primId]?).map fun p => clipLoop p.split axis min binSize (last - first) first r.aabb bins
      match res with
      | none => none
      | some (cur, bins) =>
        binRefs ctx axis min binSize invSize rs
          ((bins.modify last fun b => { b with aabb := b.aabb.growBB cur }).modify first fun b =>
            { b with entry := b.entry + 1, exit := b.exit + 1 })

/-- The cost sweep (src/builders/spatial_sah.rs 560-576) over the pairs (bin `i`, box of bin `i+1`), boxes already
accumulated from the right.  `right_count` never underflows: the `exit`s add up to at most `end - begin`. -/
def spatialSweep (axis : Fin 3) (min binSize : F) : List (SpatialBin F × Aabb F) → (i leftCount rightCount : Nat) →
    Aabb F → SpatialSplit F × Bool → SpatialSplit F × Bool
  | [], _, _, _, _, best => best
  | (b, nextBox) :: rest, i, lc, rc, cur, best =>
    let lc := lc + b.entry
    let rc := rc - b.exit
    let cur := cur.growBB b.aabb
    let cost := ofNat lc *. cur.halfArea +. ofNat rc *. nextBox.halfArea
    let best := if cost <. best.1.cost then
      ({ cost := cost, axis := axis, position := min +. ofNat (i + 1) *. binSize }, true) else best
    spatialSweep axis min binSize rest (i + 1) lc rc cur best

/-- `run_binning_pass` (src/builders/spatial_sah.rs 498-583): the updated split, and the bounds of the next pass if a
better split was found. -/
def runBinningPass (ctx : SpatialCtx F) (refs : List (Ref F)) (split : SpatialSplit F) (axis : Fin 3) (min max : F) :
    Option (SpatialSplit F × Option (F × F)) :=
  let binSize := (max -. min) /. ofNat ctx.binCount
  let invSize := one /. binSize
  match binRefs ctx axis min binSize invSize refs (List.replicate ctx.binCount ⟨Aabb.empty, 0, 0⟩) with
  | none => none
  | some bins =>
    let acc := accBoxes (bins.map SpatialBin.aabb)
    let bins := bins.zipWith (fun b a => { b with aabb := a }) acc
    let (split, found) := spatialSweep axis min binSize (bins.zip acc.tail) 0 0 refs.length Aabb.empty (split, false)
    some (split, if found then some (split.position -. binSize, split.position +. binSize) else none)

/-- The passes over one axis (src/builders/spatial_sah.rs 593-602). -/
def binningPasses (ctx : SpatialCtx F) (refs : List (Ref F)) (axis : Fin 3) : (k : Nat) → (min max : F) →
    SpatialSplit F → Option (SpatialSplit F)
  | 0, _, _, split => some split
  | k + 1, lo, hi, split =>
    match runBinningPass ctx refs split axis lo hi with
    | none => none
    | some (split, none) => some split
    | some (split, some (lo', hi')) => binningPasses ctx refs axis k lo' hi' split

/-- `find_spatial_split` (src/builders/spatial_sah.rs 585-606); all passes read `references[0]`. -/
def findSpatialSplit (ctx : SpatialCtx F) (bounds : Aabb F) (refs : List (Ref F)) : Option (SpatialSplit F) :=
  (binningPasses ctx refs 0 ctx.binningPassCount (bounds.min.get 0) (bounds.max.get 0) SpatialSplit.default).bind fun s =>
  (binningPasses ctx refs 1 ctx.binningPassCount (bounds.min.get 1) (bounds.max.get 1) s).bind fun s =>
  binningPasses ctx refs 2 ctx.binningPassCount (bounds.min.get 2) (bounds.max.get 2) s

/-! ### Applying a split -/

/-- What a split produces before `allocate_children`: the new contents of the task's range, the number of references on
the left and the end of those on the right (relative to `begin`), the boxes and the `is_sorted` flag of the children. -/
structure SplitResult (F : Type) where
  view : RefView F
  mid : Nat
  stop : Nat
  leftBox : Aabb F
  rightBox : Aabb F
  sorted : Bool

/-- `apply_object_split` (src/builders/spatial_sah.rs 447-487) with split position `s`, axis, boxes.  `maxRefs` is
`prim_indices.len()`.  The two calls of `sort_by` use a comparator that is a total preorder with two classes, and
`sort_by` is stable, so they move the marked references to the front and keep the order otherwise. -/
def applyObjectSplit (maxRefs : Nat) (view : RefView F) (n s : Nat) (axis : Fin 3) (lb rb : Aabb F) :
    Option (SplitResult F) :=
  if ¬ s < n then none
  else if (List.finRange 3).any (fun a => ((view.get a).take n).any fun r => decide (maxRefs ≤ r.primId)) then none
  else
    let left := (((view.get axis).take n).take s).map Ref.primId
    let right := (((view.get axis).take n).drop s).map Ref.primId
    let mark : Ref F → Bool := fun r => left.contains r.primId && !right.contains r.primId
    let view' : RefView F := .ofFn fun a =>
      if a = axis then view.get a
      else ((view.get a).take n).filter mark ++ ((view.get a).take n).filter (fun r => !mark r) ++ (view.get a).drop n
    some ⟨view', s, n, lb, rb, true⟩

/-- The partition loop of `apply_spatial_split` (src/builders/spatial_sah.rs 629-648): `k = right_begin - i` iterations
left.  Result: left end, right begin, the array and the two boxes; `none`: index panic. -/
def sidesLoop (axis : Fin 3) (position : F) : (k i leftEnd : Nat) → List (Ref F) → Aabb F → Aabb F →
    Option (Nat × Nat × List (Ref F) × Aabb F × Aabb F)
  | 0, i, leftEnd, refs, lb, rb => some (leftEnd, i, refs, lb, rb)
  | k + 1, i, leftEnd, refs, lb, rb =>
    match refs[i]? with
    | none => none
    | some r =>
      if r.aabb.max.get axis <=. position then
        match swapAt refs i leftEnd with
        | none => none
        | some refs => sidesLoop axis position k (i + 1) (leftEnd + 1) refs (lb.growBB r.aabb) rb
      else if r.aabb.min.get axis >=. position then
        match swapAt refs i (i + k) with
        | none => none
        | some refs => sidesLoop axis position k i leftEnd refs lb (rb.growBB r.aabb)
      else sidesLoop axis position k (i + 1) leftEnd refs lb rb

/-- State of the loop over straddling references. -/
structure Straddle (F : Type) where
  leftEnd : Nat
  rightEnd : Nat
  leftCount : Nat
  rightCount : Nat
  refs : List (Ref F)
  leftBox : Aabb F
  rightBox : Aabb F

/-- The loop over straddling references (src/builders/spatial_sah.rs 678-723), `k = right_begin - left_end` iterations
left; `refs` is the whole range up to `split_end`, so its length is the space available.  At the end `left_end` equals
`right_begin`. -/
def straddleLoop (prims : List (SpatialPrim F)) (axis : Fin 3) (position : F) : (k : Nat) → Straddle F →
    Option (Straddle F)
  | 0, s => some s
  | k + 1, s =>
    match s.refs[s.leftEnd]? with
    | none => none
    | some r =>
      match prims[r.primId]? with
      | none => none
      | some p =>
        let (lp, rp) := p.split axis position
        let lp := lp.shrink r.aabb
        let rp := rp.shrink r.aabb
        if s.rightEnd < s.refs.length then
          straddleLoop prims axis position k
            { leftEnd := s.leftEnd + 1, rightEnd := s.rightEnd + 1, leftCount := s.leftCount + 1
              rightCount := s.rightCount + 1
              refs := (s.refs.set s.rightEnd ⟨rp, rp.center, r.primId⟩).set s.leftEnd ⟨lp, lp.center, r.primId⟩
              leftBox := s.leftBox.growBB lp, rightBox := s.rightBox.growBB rp }
        else if s.leftCount < s.rightCount then
          straddleLoop prims axis position k
            { s with leftEnd := s.leftEnd + 1, leftCount := s.leftCount + 1, leftBox := s.leftBox.growBB r.aabb }
        else
          match swapAt s.refs (s.leftEnd + k) s.leftEnd with
          | none => none
          | some refs =>
            straddleLoop prims axis position k
              { s with rightCount := s.rightCount + 1, refs := refs, rightBox := s.rightBox.growBB r.aabb }

/-- The union of the boxes of references (src/builders/spatial_sah.rs 667-673, 784-795). -/
def refsBox (refs : List (Ref F)) : Aabb F := refs.foldl (fun acc r => acc.growBB r.aabb) Aabb.empty

/-- `apply_spatial_split` (src/builders/spatial_sah.rs 608-722) up to `allocate_children`.  `begin` is needed because
line 657 sets the absolute index `left_end` to `left_count / 2`; where that lies before `begin` the slice in line 667
panics. -/
def applySpatialSplit (ctx : SpatialCtx F) (view : RefView F) (begin n : Nat) (split : SpatialSplit F) :
    Option (SplitResult F) :=
  match sidesLoop split.axis split.position n 0 0 (view.get split.axis) Aabb.empty Aabb.empty with
  | none => none
  | some (leftEnd, rightBegin, refs, lb, rb) =>
    let leftCount := leftEnd
    let rightCount := n - rightBegin
    let start : Option (Straddle F × Nat) :=
      if (leftCount = 0 ∨ rightCount = 0) ∧ leftEnd = rightBegin then
        if 0 < leftCount ∧ leftCount / 2 < begin then none
        else
          let mid := if 0 < leftCount then leftCount / 2 - begin else leftEnd + rightCount / 2
          some (⟨mid, n, leftCount, rightCount, refs, refsBox (refs.take mid), refsBox ((refs.take n).drop mid)⟩, 0)
      else some (⟨leftEnd, n, leftCount, rightCount, refs, lb, rb⟩, rightBegin - leftEnd)
    match start with
    | none => none
    | some (st, k) =>
      match straddleLoop ctx.prims split.axis split.position k st with
      | none => none
      | some st =>
        some ⟨.ofFn fun a => if a = split.axis then st.refs else st.refs.take st.rightEnd ++ (view.get a).drop st.rightEnd,
          st.leftEnd, st.rightEnd, st.leftBox, st.rightBox, false⟩

/-- `left_split_count` of `allocate_children` (src/builders/spatial_sah.rs 389-397); `space` is the length of the task's
range. -/
def leftSplitCount (space : Nat) (r : SplitResult F) : Nat :=
  let leftCost := r.leftBox.halfArea *. ofNat r.mid
  let rightCost := r.rightBox.halfArea *. ofNat (r.stop - r.mid)
  if space - r.stop = 0 then 0
  else toNat (ofNat (space - r.stop) *. (leftCost /. (leftCost +. rightCost)))

/-- The move of the right child's references in `allocate_children` (src/builders/spatial_sah.rs 400-424): `none` when it
would write outside the task's range. -/
def shiftRight (r : SplitResult F) : Option (RefView F) :=
  let k := leftSplitCount r.view.x.length r
  if k = 0 then some r.view
  else
    match moveBackward r.view.x r.mid (r.stop - r.mid) (r.stop + k), moveBackward r.view.y r.mid (r.stop - r.mid) (r.stop + k),
      moveBackward r.view.z r.mid (r.stop - r.mid) (r.stop + k) with
    | some a, some b, some c => some ⟨a, b, c⟩
    | _, _, _ => none

/-! ### A task -/

/-- What a task decides: a leaf, or a split (with the references of the right child already moved). -/
inductive SpatialOutcome (F : Type)
  | leaf (view : RefView F)
  | split (r : SplitResult F)

/-- The decision part of `SpatialSahBuildTask::run` (src/builders/spatial_sah.rs 726-812) and the parts of
`allocate_children` that do not touch the nodes, as a function of the node's box, the task's range of the reference
arrays, its offset `begin` and number `n` of references, its depth and the `is_sorted` flag. -/
def spatialDecide (ctx : SpatialCtx F) (threshold : F) (maxRefs : Nat) (bounds : Aabb F) (view : RefView F)
    (begin n depth : Nat) (isSorted : Bool) : Except Fault (SpatialOutcome F) :=
  if n ≤ 1 ∨ depth ≥ ctx.maxDepth then .ok (.leaf view)
  else
    match sortView ctx view n isSorted with
    | none => .error .panic
    | some view =>
      let object := findObjectSplit view n
      let overlap := (object.leftBox.shrink object.rightBox).area
      let spatial : Option (SpatialSplit F) :=
        if overlap >. threshold && decide (n < view.x.length) then findSpatialSplit ctx bounds (view.x.take n)
        else some SpatialSplit.default
      match spatial with
      | none => .error .panic
      | some spatial =>
        let bestCost := FloatOps.min spatial.cost object.cost
        let finish (r : Option (SplitResult F)) : Except Fault (SpatialOutcome F) :=
          match r with
          | none => .error .panic
          | some r =>
            match shiftRight r with
            | none => .error .wildWrite
            | some view => .ok (.split { r with view := view })
        if bestCost >=. (bounds.halfArea *. (ofNat n -. ctx.traversalCost)) then
          if n > ctx.maxLeafSize then
            let axis := bounds.longestAxis
            finish (applyObjectSplit maxRefs view n (n / 2) axis (refsBox (((view.get axis).take n).take (n / 2)))
              (refsBox (((view.get axis).take n).drop (n / 2))))
          else .ok (.leaf view)
        else if bestCost <. object.cost then finish (applySpatialSplit ctx view begin n spatial)
        else
          match object.index with
          | some s => finish (applyObjectSplit maxRefs view n s object.axis object.leftBox object.rightBox)
          | none => .ok (.leaf view)

/-- `WorkItem` (src/builders/spatial_sah.rs 247-276). -/
structure SpatialTask where
  node : Nat
  begin : Nat
  stop : Nat
  splitEnd : Nat
  depth : Nat
  isSorted : Bool
deriving DecidableEq, Repr

/-- Progress of a task: not started; past `reference_count.fetch_add` in `make_leaf` (src/builders/spatial_sah.rs 735);
or past `allocator.allocate()` (line 373). -/
inductive SpatialPhase
  | ready
  | leafAt (first : Nat)
  | allocated (left : Nat)
deriving DecidableEq, Repr

/-- Shared state of a spatial build. -/
structure SpatialState (F : Type) where
  nodes : List (BvhNode F)
  counter : Nat
  refs : RefView F
  refCount : Nat
  prims : List Nat
  pending : List (SpatialTask × SpatialPhase)

/-- A task's own range of the reference arrays. -/
def RefView.slice (v : RefView F) (b e : Nat) : RefView F := ⟨sliceOf v.x b e, sliceOf v.y b e, sliceOf v.z b e⟩
/-- Write a task's own range back. -/
def RefView.write (v : RefView F) (b : Nat) (w : RefView F) : RefView F := ⟨writeAt v.x b w.x, writeAt v.y b w.y, writeAt v.z b w.z⟩

/-- What a task does to the shared state in one step. -/
structure SpatialEffect (F : Type) where
  nodes : List (BvhNode F)
  counter : Nat
  refCount : Nat
  prims : List Nat
  view : RefView F
  new : List (SpatialTask × SpatialPhase)

/-- One atomic step of a task (src/builders/spatial_sah.rs 726-838).  The first step makes the decision and the task's
single operation on shared counters (`fetch_add` of `reference_count` in line 735, or `allocate` in line 373), the second
does the writes: leaf ids and node (737-742), or parent node, children's nodes and reference ranges (375-445, 812-838).
All other memory a task touches is its own node, its own range of references and the ranges returned by its counter
operation, so treating each of the two phases as atomic loses no behaviour. -/
def spatialTaskStep (ctx : SpatialCtx F) (threshold : F) (nodes : List (BvhNode F)) (counter refCount : Nat)
    (prims : List Nat) (view : RefView F) (t : SpatialTask) (phase : SpatialPhase) : Except Fault (SpatialEffect F) :=
  match nodes[t.node]? with
  | none => .error .panic
  | some nd =>
    match spatialDecide ctx threshold prims.length nd.bounds view t.begin (t.stop - t.begin) t.depth t.isSorted with
    | .error f => .error f
    | .ok (.leaf view') =>
      let ids := (view'.x.take (t.stop - t.begin)).map Ref.primId
      match phase with
      | .leafAt first =>
        if prims.length < first + ids.length then .error .wildWrite
        else .ok ⟨nodes.set t.node ((nd.setLeftFirst (some first)).setCount (some (t.stop - t.begin))), counter, refCount,
          writeAt prims first ids, view', []⟩
      | _ => .ok ⟨nodes, counter, refCount + (t.stop - t.begin), prims, view, [(t, .leafAt refCount)]⟩
    | .ok (.split r) =>
      match phase with
      | .allocated left =>
        match nodes[left]?, nodes[left + 1]? with
        | some ln, some rn =>
          let parent := ({ bounds := (((nd.setLeftFirst (some left)).setCount none).bounds).offsetBy (lit 1 (-4)) } : BvhNode F)
          .ok ⟨((nodes.set t.node parent).set left { ln with bounds := r.leftBox }).set (left + 1)
              { rn with bounds := r.rightBox },
            counter, refCount, prims, r.view,
            [({ node := left, begin := t.begin, stop := t.begin + r.mid, splitEnd := t.begin + r.mid
                depth := t.depth + 1, isSorted := r.sorted }, .ready),
             ({ node := left + 1, begin := t.begin + r.mid, stop := t.begin + r.stop, splitEnd := t.splitEnd
                depth := t.depth + 1, isSorted := r.sorted }, .ready)]⟩
        | _, _ => .error .wildWrite
      | _ =>
        match allocate nodes.length counter with
        | (.pair left, c) => .ok ⟨nodes, c, refCount, prims, view, [(t, .allocated left)]⟩
        | (.exhausted, _) => .error .panic
        | (.outOfBounds, _) => .error .wildWrite

/-- One atomic step of pending task number `k`; a choice that names no pending task changes nothing. -/
def spatialStep (ctx : SpatialCtx F) (threshold : F) (s : SpatialState F) (k : Nat) : Except Fault (SpatialState F) :=
  match s.pending[k]? with
  | none => .ok s
  | some (t, phase) =>
    match spatialTaskStep ctx threshold s.nodes s.counter s.refCount s.prims (s.refs.slice t.begin t.splitEnd) t phase with
    | .error f => .error f
    | .ok e =>
      .ok { nodes := e.nodes, counter := e.counter, refs := s.refs.write t.begin e.view, refCount := e.refCount
            prims := e.prims, pending := s.pending.eraseIdx k ++ e.new }

/-- Run a schedule. -/
def spatialExec (ctx : SpatialCtx F) (threshold : F) : List Nat → SpatialState F → Except Fault (SpatialState F)
  | [], s => .ok s
  | k :: ks, s =>
    match spatialStep ctx threshold s k with
    | .error f => .error f
    | .ok s' => spatialExec ctx threshold ks s'

/-- `max_reference_count` (src/builders/spatial_sah.rs 937). -/
def maxReferenceCount (ctx : SpatialCtx F) : Nat :=
  ctx.aabbs.length + toNat (ofNat ctx.aabbs.length *. ctx.splitFactor)

/-- `spatial_threshold` (src/builders/spatial_sah.rs 959). -/
def spatialThreshold (ctx : SpatialCtx F) : F :=
  ctx.alpha *. lit 2 0 *. (Aabb.unionOfList ctx.aabbs).halfArea

/-- The initial references (src/builders/spatial_sah.rs 945-947, 963-987): each of the three arrays is filled by one
`for_each` closure, disjointly. -/
def initialRefs (ctx : SpatialCtx F) : List (Ref F) :=
  ((ctx.aabbs.zip ctx.prims).zipIdx.map fun ((b, p), i) => (⟨b, p.center, i % 2 ^ 32⟩ : Ref F)) ++
    List.replicate (maxReferenceCount ctx - ctx.aabbs.length) Ref.default

/-- Start of `SpatialSahBuilder::build` (src/builders/spatial_sah.rs 935-1014). -/
def spatialInit (ctx : SpatialCtx F) : SpatialState F :=
  let m := maxReferenceCount ctx
  { nodes := (List.replicate (2 * m + 1) BvhNode.new).set 0 { bounds := Aabb.unionOfList ctx.aabbs }
    counter := 1
    refs := .ofFn fun _ => initialRefs ctx
    refCount := 0
    prims := List.replicate m 0
    pending := [({ node := 0, begin := 0, stop := ctx.aabbs.length, splitEnd := m, depth := 0, isSorted := false }, .ready)] }

/-- End of `SpatialSahBuilder::build` (src/builders/spatial_sah.rs 1021-1032): the nodes are cut to the number allocated,
the index array keeps its full length `max_reference_count`. -/
def spatialFinish (s : SpatialState F) : Bvh F :=
  { nodes := s.nodes.take s.counter ++ List.replicate (s.counter - s.nodes.length) BvhNode.new
    primIndices := s.prims
    buildType := .spatial }

/-- `SpatialSahBuilder::build` (src/builders/spatial_sah.rs 927-1033) under a schedule; `.ok none`: not finished. -/
def spatialBuild (ctx : SpatialCtx F) (schedule : List Nat) : Except Fault (Option (Bvh F)) :=
  if ctx.prims.length ≠ ctx.aabbs.length ∨ ctx.prims = [] ∨ ctx.aabbs = [] then .ok (some Bvh.default)
  else
    match spatialExec ctx (spatialThreshold ctx) schedule (spatialInit ctx) with
    | .error f => .error f
    | .ok s => if s.pending = [] then .ok (some (spatialFinish s)) else .ok none

/-- `Builder::construct_spatial_sah` (src/bvh.rs 59-85).  `split i` is the primitive's `split` method (the provided one or
the user's own), `sort` the behaviour of `sort_by` (see `SpatialCtx`), `order` and `schedule` as for
`Builder.constructBinnedSah`. -/
def Builder.constructSpatialSah (b : Builder F) (split : Nat → Fin 3 → F → Aabb F × Aabb F)
    (sort : Fin 3 → List (Ref F) → Option (List (Ref F))) (order schedule : List Nat) :
    Except BuildError (Except Fault (Option (Bvh F))) :=
  match b.check order with
  | .error e => .error e
  | .ok aabbs =>
    .ok (spatialBuild (SpatialCtx.new aabbs (b.primitives.zipIdx.map fun (p, i) => ⟨p.center, split i⟩) b.primitivesPerLeaf sort)
      schedule)

end Rtbvh
