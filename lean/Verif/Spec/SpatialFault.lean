import Verif.Spec.SpatialRule
/- Specification of what can go wrong in a spatial build: the nodes it works on and the causes of faults. -/
namespace Rtbvh
open FloatOps
variable {F : Type} [FloatOps F]

/-- A node a build works on: depth, box, its part of the three reference arrays, where that part begins, the number of
references, and whether they are sorted. -/
structure SpatialNode (F : Type) where
  depth : Nat
  box : Aabb F
  view : RefView F
  begin : Nat
  n : Nat
  sorted : Bool

/-- The node is cut: `W` are the sorted references, `r` the cut, `V` the references after making room. -/
structure CutsTo (ctx : SpatialCtx F) (thr : F) (x : SpatialNode F) (W : RefView F) (r : SplitResult F) (V : RefView F) :
    Prop where
  many : 1 < x.n
  shallow : x.depth < ctx.maxDepth
  order : InOrder ctx x.view x.n x.sorted W
  cut : SpatialCut ctx thr x.box W x.begin x.n r
  shift : ∀ a, Shifted r.mid r.stop (leftShare W.x.length r.mid r.stop r.leftBox r.rightBox) (r.view.get a) (V.get a)

/-- The nodes a build works on, from the root down, by the rule of `SpatialRule`. -/
inductive Reached (ctx : SpatialCtx F) (thr : F) (root : SpatialNode F) : SpatialNode F → Prop
  | root : Reached ctx thr root root
  | left {x W r V} (h : Reached ctx thr root x) (hc : CutsTo ctx thr x W r V) :
      Reached ctx thr root ⟨x.depth + 1, r.leftBox, V.slice 0 r.mid, x.begin, r.mid, r.sorted⟩
  | right {x W r V} (h : Reached ctx thr root x) (hc : CutsTo ctx thr x W r V) :
      Reached ctx thr root ⟨x.depth + 1, r.rightBox, V.slice r.mid V.x.length, x.begin + r.mid, r.stop - r.mid, r.sorted⟩

/-- The node is not a leaf for lack of references or room for depth. -/
def SpatialNode.Busy (ctx : SpatialCtx F) (x : SpatialNode F) : Prop := 1 < x.n ∧ x.depth < ctx.maxDepth

/-- Why a build can fault at a node. -/
inductive FaultCause (ctx : SpatialCtx F) (thr : F) (x : SpatialNode F) : Fault → Prop
  /-- `sort_by` panics (NaN centres). -/
  | sort {a} (hn : x.Busy ctx) (hs : x.sorted = false) (h : ctx.sort a ((x.view.get a).take x.n) = none) : FaultCause ctx thr x .panic
  /-- The search for a clipping plane panics: at some reference of the slabs of some pass. -/
  | plane {W best cost} (hn : x.Busy ctx) (ho : InOrder ctx x.view x.n x.sorted W)
      (hb : BestObject (fun a => (W.get a).take x.n) x.n best cost)
      (hv : (overlapOf (fun a => (W.get a).take x.n) best >. thr) = true) (hr : x.n < W.x.length)
      (h : ClipPanics ctx x.box (W.x.take x.n)) : FaultCause ctx thr x .panic
  /-- The references are to be clipped at a plane, all of them are below it, and half their number is less than the place
  where the node's references begin. -/
  | slice {W best cost plane} (hn : x.Busy ctx) (ho : InOrder ctx x.view x.n x.sorted W)
      (hc : Candidates ctx thr x.box W x.n best cost plane) (hg : ¬ NoGain ctx x.box x.n cost plane.cost)
      (hp : (FloatOps.min plane.cost cost <. cost) = true)
      (hl : ∀ y ∈ (W.get plane.axis).take x.n, (y.aabb.max.get plane.axis <=. plane.position) = true)
      (hb : x.n / 2 < x.begin) : FaultCause ctx thr x .panic
  /-- The left child's share of the free room is more than there is. -/
  | share {W r} (hn : x.Busy ctx) (ho : InOrder ctx x.view x.n x.sorted W) (hc : SpatialCut ctx thr x.box W x.begin x.n r)
      (hl : r.stop ≤ W.x.length) (hr : r.mid < r.stop)
      (hs : W.x.length < r.stop + leftShare W.x.length r.mid r.stop r.leftBox r.rightBox) : FaultCause ctx thr x .wildWrite
  /-- The node has no references at all: an empty child was made, and the pool of nodes can run out. -/
  | empty (h : x.n = 0) : FaultCause ctx thr x .panic

end Rtbvh
