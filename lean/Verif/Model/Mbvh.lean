import Verif.Model.Iter
/- Model of src/mbvh_node.rs and of `Mbvh` (src/bvh.rs 318-468). -/
namespace Rtbvh
variable {F : Type}

/-- `MbvhHit` (src/mbvh_node.rs 12-15); the ids are bytes 0-3. -/
structure MbvhHit where
  ids : Vec4 (Fin 4)
  result : Vec4 Bool
deriving DecidableEq, Repr

/-- `MbvhHit::default` (src/mbvh_node.rs 17-24). -/
def MbvhHit.default : MbvhHit := { ids := Vec4.splat 0, result := Vec4.splat false }

/-- `MbvhNode` (src/mbvh_node.rs 29-38). -/
structure MbvhNode (F : Type) where
  minX : Vec4 F
  maxX : Vec4 F
  minY : Vec4 F
  maxY : Vec4 F
  minZ : Vec4 F
  maxZ : Vec4 F
  children : Vec4 Int
  counts : Vec4 Int
deriving DecidableEq, Repr

namespace MbvhNode

/-- `MbvhNode::new` (src/mbvh_node.rs 56-78). -/
def new [FloatOps F] : MbvhNode F :=
  { minX := Vec4.splat (FloatOps.lit 1 34), minY := Vec4.splat (FloatOps.lit 1 34)
    minZ := Vec4.splat (FloatOps.lit 1 34), maxX := Vec4.splat (FloatOps.lit (-1) 34)
    maxY := Vec4.splat (FloatOps.lit (-1) 34), maxZ := Vec4.splat (FloatOps.lit (-1) 34)
    children := Vec4.splat (-1), counts := Vec4.splat (-1) }

/-- `MbvhNode::default` (src/mbvh_node.rs 40-53): zero boxes, no children. -/
def default [FloatOps F] : MbvhNode F :=
  { minX := Vec4.splat FloatOps.zero, minY := Vec4.splat FloatOps.zero, minZ := Vec4.splat FloatOps.zero
    maxX := Vec4.splat FloatOps.zero, maxY := Vec4.splat FloatOps.zero, maxZ := Vec4.splat FloatOps.zero
    children := Vec4.splat (-1), counts := Vec4.splat (-1) }

/-- `set_bounds` / `set_bounds_bb` (src/mbvh_node.rs 161-175). -/
def setBoundsBB (m : MbvhNode F) (i : Fin 4) (b : Aabb F) : MbvhNode F :=
  { m with
    minX := m.minX.set i b.min.x, minY := m.minY.set i b.min.y, minZ := m.minZ.set i b.min.z
    maxX := m.maxX.set i b.max.x, maxY := m.maxY.set i b.max.y, maxZ := m.maxZ.set i b.max.z }

/-- `self.children[i] = c` (src/mbvh_node.rs 391, 401, 407). -/
def setChild (m : MbvhNode F) (i : Fin 4) (c : Int) : MbvhNode F := { m with children := m.children.set i c }
/-- `self.counts[i] = c` (src/mbvh_node.rs 392, 402). -/
def setCount (m : MbvhNode F) (i : Fin 4) (c : Int) : MbvhNode F := { m with counts := m.counts.set i c }

/-- Lane `i` of the six vectors returned by `points` (src/mbvh_node.rs 80-108). -/
def slotBox (m : MbvhNode F) (i : Fin 4) : Aabb F :=
  { min := ⟨m.minX.get i, m.minY.get i, m.minZ.get i⟩, extra1 := 0
    max := ⟨m.maxX.get i, m.maxY.get i, m.maxZ.get i⟩, extra2 := 0 }

/-- The four boxes of a quad node. -/
def boxes (m : MbvhNode F) : Vec4 (Aabb F) := Vec4.ofFn m.slotBox

end MbvhNode

section tests
variable [FloatOps F]
open FloatOps

/-- `t_min`, `t_max` of one lane of `MbvhNode::intersect` (src/mbvh_node.rs 178-206), for the box in that lane. -/
def quadLane (b : Aabb F) (ray : Ray F) : F × F :=
  let tx0 := (b.min.x -. ray.origin.x) *. ray.invDirection.x
  let tx1 := (b.max.x -. ray.origin.x) *. ray.invDirection.x
  let ty0 := (b.min.y -. ray.origin.y) *. ray.invDirection.y
  let ty1 := (b.max.y -. ray.origin.y) *. ray.invDirection.y
  let tz0 := (b.min.z -. ray.origin.z) *. ray.invDirection.z
  let tz1 := (b.max.z -. ray.origin.z) *. ray.invDirection.z
  (vmax (vmin tx0 tx1) (vmax (vmin ty0 ty1) (vmin tz0 tz1)), vmin (vmax tx0 tx1) (vmin (vmax ty0 ty1) (vmax tz0 tz1)))

/-- One lane of `result` of `MbvhNode::intersect` (src/mbvh_node.rs 208). -/
def quadTest (b : Aabb F) (ray : Ray F) : Bool :=
  (quadLane b ray).2 >=. (quadLane b ray).1 && (quadLane b ray).1 <. ray.t

/-- `swap(a, b)` of an array of four (src/mbvh_node.rs 223-236). -/
def Vec4.swap {α : Type} (v : Vec4 α) (a b : Fin 4) : Vec4 α := (v.set a (v.get b)).set b (v.get a)

/-- One compare-and-swap of both arrays (src/mbvh_node.rs 222-225). -/
def cswap (a b : Fin 4) (p : Vec4 F × Vec4 (Fin 4)) : Vec4 F × Vec4 (Fin 4) :=
  if p.1.get a >. p.1.get b then (p.1.swap a b, p.2.swap a b) else p

/-- The network of src/mbvh_node.rs 218-238: the last step swaps only the ids. -/
def sortIds (t : Vec4 F) : Vec4 (Fin 4) :=
  let p := cswap 1 3 (cswap 0 2 (cswap 2 3 (cswap 0 1 (t, ⟨0, 1, 2, 3⟩))))
  if p.1.get 2 >. p.1.get 3 then p.2.swap 2 3 else p.2

/-- `MbvhNode::intersect` (src/mbvh_node.rs 177-240), as a function of the four boxes. -/
def quadHit (bs : Vec4 (Aabb F)) (ray : Ray F) : MbvhHit :=
  { ids := sortIds (bs.map fun b => (quadLane b ray).1), result := bs.map fun b => quadTest b ray }

/-- `t_min`, `t_max` of one box for packet lane `i` in `MbvhNode::intersect4` (src/mbvh_node.rs 249-277). -/
def quadLane4 (b : Aabb F) (p : RayPacket4 F) (i : Fin 4) : F × F :=
  let t1x := (b.min.x -. p.originX.get i) *. p.invDirectionX.get i
  let t2x := (b.max.x -. p.originX.get i) *. p.invDirectionX.get i
  let t1y := (b.min.y -. p.originY.get i) *. p.invDirectionY.get i
  let t2y := (b.max.y -. p.originY.get i) *. p.invDirectionY.get i
  let t1z := (b.min.z -. p.originZ.get i) *. p.invDirectionZ.get i
  let t2z := (b.max.z -. p.originZ.get i) *. p.invDirectionZ.get i
  (vmax (vmax (vmin t1x t2x) (vmin t1y t2y)) (vmin t1z t2z), vmin (vmin (vmax t1x t2x) (vmax t1y t2y)) (vmax t1z t2z))

/-- The contribution of packet lane `i` to one box's `result` (src/mbvh_node.rs 279-281). -/
def quadTest4 (b : Aabb F) (p : RayPacket4 F) (i : Fin 4) : Bool :=
  (quadLane4 b p i).2 >. (quadLane4 b p i).1 && (quadLane4 b p i).1 <. p.t.get i

/-- `MbvhNode::intersect4` (src/mbvh_node.rs 243-295); `final_t_min` is computed there but never read. -/
def quadHit4 (bs : Vec4 (Aabb F)) (p : RayPacket4 F) : MbvhHit :=
  { ids := ⟨0, 1, 2, 3⟩, result := bs.map fun b => (Vec4.ofFn (quadTest4 b p)).any }

end tests

/-- The two entries (child index or leaf start, count) that `merge_nodes` reads off one child of the current node
(src/mbvh_node.rs 323-349 for the left child with slots `a = 0`, `b = 1`; 351-377 for the right child with slots 2 and
3, the same code): a leaf child fills the first slot and keeps the box, an interior child contributes its two children
and their boxes.  `none` is an index panic. -/
def gatherChild (pool : List (BvhNode F)) (child : Nat) (a b : Fin 4) (m : MbvhNode F) :
    Option (MbvhNode F × (Int × Int) × (Int × Int)) :=
  match pool[child]? with
  | none => some (m, (-1, -1), (-1, -1))
  | some nd =>
    match nd.getLeftFirst with
    | none => some (m, (-1, -1), (-1, -1))
    | some lf =>
      if nd.isLeaf then some (m, (asI32 lf, nd.countU), (-1, -1))
      else
        match pool[lf]?, pool[lf + 1]? with
        | some g, some h =>
          let n0 := if g.isLeaf then (g.leftFirstU, g.countU) else (asI32 lf, -1)
          let n1 := if h.isLeaf then (h.leftFirstU, h.countU) else (asI32 lf + 1, -1)
          some ((m.setBoundsBB a g.bounds).setBoundsBB b h.bounds, n0, n1)
        | _, _ => none

/-- `mbvh_pool[i] = f(mbvh_pool[i])`, panicking out of range. -/
def modifyAt {α : Type} (l : List α) (i : Nat) (f : α → α) : Option (List α) :=
  match l[i]? with
  | none => none
  | some x => some (l.set i (f x))

/-- The mutable state threaded through `merge_nodes`: the quad nodes and `*pool_ptr`. -/
abbrev MPool (F : Type) := List (MbvhNode F) × Nat

/-- One iteration of the final loop of `merge_nodes` (src/mbvh_node.rs 384-410); `rec` is the recursive call. -/
def mergeSlot (pool : List (BvhNode F)) (rec : Nat → Nat → MPool F → Option (MPool F)) (mIndex : Nat) (i : Fin 4)
    (e : Int × Int) (s : MPool F) : Option (MPool F) :=
  if e.1 ≥ 0 ∧ e.2 ≥ 0 then
    (modifyAt s.1 mIndex fun m => (m.setChild i e.1).setCount i e.2).map fun ms => (ms, s.2)
  else if e.1 = -1 then some s
  else
    match atI32 pool e.1 with
    | none => none
    | some nd =>
      if nd.isLeaf then
        (modifyAt s.1 mIndex fun m =>
          ((m.setChild i nd.leftFirstU).setCount i nd.countU).setBoundsBB i nd.bounds).map fun ms => (ms, s.2)
      else
        (modifyAt s.1 mIndex fun m => (m.setChild i (asI32 s.2)).setBoundsBB i nd.bounds).bind fun ms =>
          rec s.2 e.1.toNat (ms, s.2 + 1)

/-- `MbvhNode::merge_nodes` (src/mbvh_node.rs 297-411).  `fuel` bounds the recursion depth (running out is a call stack
overflow); `none` is a panic. -/
def mergeNodes (pool : List (BvhNode F)) : (fuel mIndex cur : Nat) → MPool F → Option (MPool F)
  | 0, _, _, _ => none
  | fuel + 1, mIndex, cur, s =>
    match pool[cur]?, s.1[mIndex]? with
    | some nd, some m =>
      let m := (((m.setBoundsBB 0 nd.bounds).setBoundsBB 1 nd.bounds).setBoundsBB 2 nd.bounds).setBoundsBB 3 nd.bounds
      let gathered :=
        match nd.getLeftFirst with
        | none => some (m, ((-1, -1), (-1, -1)), ((-1, -1), (-1, -1)))
        | some lf =>
          match gatherChild pool lf 0 1 m with
          | none => none
          | some (m, e01) =>
            match gatherChild pool (lf + 1) 2 3 m with
            | none => none
            | some (m, e23) => some (m, e01, e23)
      match gathered with
      | none => none
      | some (m, (e0, e1), (e2, e3)) =>
        let rec' := mergeNodes pool fuel
        (((mergeSlot pool rec' mIndex 0 e0 (s.1.set mIndex m, s.2)).bind
          (mergeSlot pool rec' mIndex 1 e1)).bind
          (mergeSlot pool rec' mIndex 2 e2)).bind
          (mergeSlot pool rec' mIndex 3 e3)
    | _, _ => none

/-- `Mbvh` (src/bvh.rs 320-324). -/
structure Mbvh (F : Type) where
  nodes : List (BvhNode F)
  mNodes : List (MbvhNode F)
  primIndices : List Nat
deriving DecidableEq, Repr

/-- `Mbvh::default` (src/bvh.rs 326-334). -/
def Mbvh.default : Mbvh F := { nodes := [], mNodes := [], primIndices := [] }

variable [FloatOps F]

/-- `Vec::resize(n, value)`. -/
def resizeList {α : Type} (l : List α) (n : Nat) (v : α) : List α := l.take n ++ List.replicate (n - l.length) v

/-- `Mbvh::construct` (src/bvh.rs 381-404) and `From<Bvh>` (src/bvh.rs 446-450). -/
def Mbvh.construct (fuel : Nat) (b : Bvh F) : Option (Mbvh F) :=
  if b.nodes.isEmpty then some Mbvh.default
  else
    (mergeNodes b.nodes fuel 0 0 (List.replicate b.nodes.length MbvhNode.new, 1)).map fun s =>
      { nodes := b.nodes, mNodes := resizeList s.1 s.2 MbvhNode.default, primIndices := b.primIndices }

/-- The loop of the special path of `construct_from_raw` (src/bvh.rs 359-363): slot `i` of quad node 0 is node `i`. -/
def rawSlots : List (BvhNode F) → (i : Nat) → MbvhNode F → MbvhNode F
  | [], _, m => m
  | nd :: l, i, m =>
    rawSlots l (i + 1)
      (((m.setBoundsBB (Fin.ofNat 4 i) nd.bounds).setChild (Fin.ofNat 4 i) nd.leftFirstU).setCount (Fin.ofNat 4 i)
        nd.countU)

/-- `Mbvh::construct_from_raw` (src/bvh.rs 353-379) in a release build: with no nodes at all the loop of the special path
does not run (a debug build panics in the `debug_assert!` of line 354). -/
def Mbvh.constructFromRaw (fuel : Nat) (nodes : List (BvhNode F)) (primIndices : List Nat) : Option (Mbvh F) :=
  if nodes.isEmpty then some { nodes := [], mNodes := [], primIndices := primIndices }
  else if nodes.length ≤ 4 then
    (modifyAt (List.replicate nodes.length MbvhNode.new) 0 (rawSlots nodes 0)).map fun ms =>
      { nodes := nodes, mNodes := ms, primIndices := primIndices }
  else
    (mergeNodes nodes fuel 0 0 (List.replicate nodes.length MbvhNode.new, 1)).map fun s =>
      { nodes := nodes, mNodes := s.1, primIndices := primIndices }

/-- `Bounds for Mbvh` (src/bvh.rs 461-468). -/
def Mbvh.bounds (b : Mbvh F) : Aabb F :=
  match b.nodes with
  | [] => Aabb.new
  | n :: _ => n.bounds

/-! Iterators. -/

section iter
omit [FloatOps F]
variable {σ ι P : Type}

/-- Mutable fields of the quad iterators (src/iter_indices.rs 213-224, src/iter.rs 246-258). -/
structure QTrav (σ : Type) where
  ray : σ
  hit : MbvhHit
  current : Int
  i : Nat
  j : Int
  stack : List Int
deriving DecidableEq, Repr

/-- One round of the `loop` of `next`. -/
inductive QStep (σ ι : Type)
  | done
  | panic
  | cont (t : QTrav σ)
  | yield (item : ι) (t : QTrav σ)
deriving DecidableEq, Repr

/-- One round of `next` of the four quad iterators (src/iter_indices.rs 275-312, 377-414; src/iter.rs 310-354, 423-468),
which differ in the test and in the item made from a primitive id: the index iterators hand out the id, the primitive
iterators `primitives.get(id)`; when that is `None` they leave the leaf.  The reference
`nodes.get_unchecked(current)` taken at the start of each round is read only where `node` is used, so an index out of
range counts as a failure only there. -/
def quadStep (nodes : List (MbvhNode F)) (indices : List Nat) (item : Nat → Option ι)
    (hit : Vec4 (Aabb F) → σ → MbvhHit) (t : QTrav σ) : QStep σ ι :=
  if t.i ≥ 4 then
    match t.stack with
    | [] => .done
    | top :: rest =>
      match atI32 nodes top with
      | none => .panic
      | some nd => .cont { t with current := top, stack := rest, hit := hit nd.boxes t.ray, i := 0 }
  else
    let id := t.hit.ids.get (Fin.ofNat 4 (3 - t.i))
    if t.hit.result.get id then
      match atI32 nodes t.current with
      | none => .panic
      | some node =>
        let count := node.counts.get id
        let leftFirst := node.children.get id
        if count > -1 then
          if t.j < count then
            match atI32 indices (leftFirst + t.j) with
            | none => .panic
            | some primId =>
              match item primId with
              | some x => .yield x { t with j := t.j + 1 }
              | none => .cont { t with j := 0, i := t.i + 1 }
          else .cont { t with j := 0, i := t.i + 1 }
        else if leftFirst > -1 then
          match push32 t.stack leftFirst with
          | none => .panic
          | some st => .cont { t with stack := st, i := t.i + 1 }
        else .cont { t with i := t.i + 1 }
    else .cont { t with i := t.i + 1 }

/-- A `for` loop over a quad iterator (see `drive`). -/
def qdrive (step : QTrav σ → QStep σ ι) (cb : σ → ι → σ × Bool) : (fuel : Nat) → QTrav σ → Run σ ι
  | 0, t => ⟨[], t.ray, .outOfFuel⟩
  | fuel + 1, t =>
    match step t with
    | .done => ⟨[], t.ray, .finished⟩
    | .panic => ⟨[], t.ray, .panicked⟩
    | .cont t' => qdrive step cb fuel t'
    | .yield x t' =>
      match cb t'.ray x with
      | (ray, true) => ⟨[x], ray, .stopped⟩
      | (ray, false) => (qdrive step cb fuel { t' with ray := ray }).cons x

/-- Constructor of the quad iterators (src/iter_indices.rs 229-247, 331-349; src/iter.rs 263-282, 376-395): the root is
tested at once; with no nodes the hit is the default one. -/
def qtravNew (nodes : List (MbvhNode F)) (hit : Vec4 (Aabb F) → σ → MbvhHit) (ray : σ) : QTrav σ :=
  { ray := ray, hit := (match nodes[0]? with | some nd => hit nd.boxes ray | none => MbvhHit.default)
    current := 0, i := 0, j := 0, stack := [] }
end iter

/-- `for` over `mbvh.traverse_iter_indices(&mut ray)` (src/bvh.rs 426-428, src/iter_indices.rs 213-313). -/
def Mbvh.forIndices (b : Mbvh F) (cb : Ray F → Nat → Ray F × Bool) (fuel : Nat) (ray : Ray F) : Run (Ray F) Nat :=
  qdrive (quadStep b.mNodes b.primIndices some quadHit) cb fuel (qtravNew b.mNodes quadHit ray)

/-- `for` over `mbvh.traverse_iter_indices_packet(&mut packet)` (src/bvh.rs 438-443, src/iter_indices.rs 316-415). -/
def Mbvh.forIndicesPacket (b : Mbvh F) (cb : RayPacket4 F → Nat → RayPacket4 F × Bool) (fuel : Nat)
    (p : RayPacket4 F) : Run (RayPacket4 F) Nat :=
  qdrive (quadStep b.mNodes b.primIndices some quadHit4) cb fuel (qtravNew b.mNodes quadHit4 p)

/-- `for` over `mbvh.traverse_iter(&mut ray, primitives)` (src/bvh.rs 418-424, src/iter.rs 246-355). -/
def Mbvh.forPrims {P : Type} (b : Mbvh F) (primitives : List P) (cb : Ray F → P → Ray F × Bool) (fuel : Nat)
    (ray : Ray F) : Run (Ray F) P :=
  qdrive (quadStep b.mNodes b.primIndices (fun id => primitives[id]?) quadHit) cb fuel (qtravNew b.mNodes quadHit ray)

/-- `for` over `mbvh.traverse_iter_packet(&mut packet, primitives)` (src/bvh.rs 430-436, src/iter.rs 358-469). -/
def Mbvh.forPrimsPacket {P : Type} (b : Mbvh F) (primitives : List P) (cb : RayPacket4 F → P → RayPacket4 F × Bool)
    (fuel : Nat) (p : RayPacket4 F) : Run (RayPacket4 F) P :=
  qdrive (quadStep b.mNodes b.primIndices (fun id => primitives[id]?) quadHit4) cb fuel
    (qtravNew b.mNodes quadHit4 p)

end Rtbvh
