import Verif.Model.Node
/- Model of the binary-BVH iterators: src/iter.rs 22-243, src/iter_indices.rs 19-210 and the stack handling of
src/bvh_node.rs 150-211. -/
namespace Rtbvh
variable {F σ τ ι : Type}

/-- `get_unchecked(x as usize)` with an `i32` index; out of range (undefined behaviour in the code) is `none`
(src/iter_indices.rs 73-76, 84-85, 94-97). -/
def atI32 {α : Type} (l : List α) (x : Int) : Option α := if x ≥ 0 then l[x.toNat]? else none

/-- Mutable fields of an iterator (src/iter_indices.rs 20-27): the borrowed ray or packet, the position `i` in the
current leaf, and the stack.  `stack[0..=stack_ptr]` is a list with the top first; the stale entries above
`stack_ptr` are not represented. -/
structure Trav (σ : Type) where
  ray : σ
  i : Int
  stack : List Int
deriving DecidableEq, Repr

/-- One round of the `loop` of an iterator's `next`: return `None`, panic (or leave the stack/slice bounds), go round
again, or return an item. -/
inductive Step (σ ι : Type)
  | done
  | panic
  | cont (t : Trav σ)
  | yield (item : ι) (t : Trav σ)
deriving DecidableEq, Repr

/-- `stack_ptr += 1; hit_stack[stack_ptr as usize] = x` on the 32-entry array (src/bvh_node.rs 159-164): indexing is
checked, entry 32 panics. -/
def push32 (st : List Int) (x : Int) : Option (List Int) := if st.length < 32 then some (x :: st) else none

/-- `sort_nodes` and `sort_nodes4` (src/bvh_node.rs 150-177, 180-211); `closer` is the comparison of the two results
(`t_near_left < t_near_right`, or for packets: in some lane). -/
def sortNodes (closer : τ → τ → Bool) (left right : Option τ) (st : List Int) (lf : Int) : Option (List Int) :=
  match left, right with
  | some tl, some tr =>
    if closer tl tr then (push32 st lf).bind fun st => push32 st (lf + 1)
    else (push32 st (lf + 1)).bind fun st => push32 st lf
  | some _, none => push32 st lf
  | none, some _ => push32 st (lf + 1)
  | none, none => some st

/-- One round of `BvhIndexIterator::next` (src/iter_indices.rs 66-106) and, with the packet test,
`BvhPacketIndexIterator::next` (src/iter_indices.rs 169-209). -/
def bvhIndexStep (nodes : List (BvhNode F)) (indices : List Nat) (hit : Aabb F → σ → Option τ)
    (closer : τ → τ → Bool) (t : Trav σ) : Step σ Nat :=
  match t.stack with
  | [] => .done
  | top :: rest =>
    match atI32 nodes top with
    | none => .panic
    | some node =>
      let count := node.countU
      let leftFirst := node.leftFirstU
      if count > -1 then
        if t.i < count then
          match atI32 indices (leftFirst + t.i) with
          | none => .panic
          | some id => .yield id { t with i := t.i + 1 }
        else .cont { t with i := 0, stack := rest }
      else if leftFirst > -1 then
        match atI32 nodes leftFirst, atI32 nodes (leftFirst + 1) with
        | some l, some r =>
          match sortNodes closer (hit l.bounds t.ray) (hit r.bounds t.ray) rest leftFirst with
          | none => .panic
          | some st => .cont { t with stack := st }
        | _, _ => .panic
      else .cont { t with stack := rest }

/-- One round of `BvhIterator::next` (src/iter.rs 83-127) and, with the packet test, `BvhPacketIterator::next`
(src/iter.rs 198-242): the item is `primitives.get(prim_id)`; when that is `None` control falls through to
`self.i = 0` with the leaf still on the stack. -/
def bvhPrimStep {P : Type} (nodes : List (BvhNode F)) (indices : List Nat) (primitives : List P)
    (hit : Aabb F → σ → Option τ) (closer : τ → τ → Bool) (t : Trav σ) : Step σ P :=
  match t.stack with
  | [] => .done
  | top :: rest =>
    match atI32 nodes top with
    | none => .panic
    | some node =>
      let count := node.countU
      let leftFirst := node.leftFirstU
      if count > -1 then
        if t.i < count then
          match atI32 indices (leftFirst + t.i) with
          | none => .panic
          | some id =>
            match primitives[id]? with
            | some p => .yield p { t with i := t.i + 1 }
            | none => .cont { t with i := 0 }
        else .cont { t with i := 0, stack := rest }
      else if leftFirst > -1 then
        match atI32 nodes leftFirst, atI32 nodes (leftFirst + 1) with
        | some l, some r =>
          match sortNodes closer (hit l.bounds t.ray) (hit r.bounds t.ray) rest leftFirst with
          | none => .panic
          | some st => .cont { t with stack := st }
        | _, _ => .panic
      else .cont { t with stack := rest }

/-- How a `for` loop over an iterator ends. -/
inductive Ending
  | finished
  | stopped
  | panicked
  | outOfFuel
deriving DecidableEq, Repr

/-- Result of a `for` loop over an iterator: the items in order, the final ray, and how it ended. -/
structure Run (σ ι : Type) where
  items : List ι
  ray : σ
  ending : Ending
deriving DecidableEq, Repr

/-- Put an item in front. -/
def Run.cons (x : ι) (r : Run σ ι) : Run σ ι := { r with items := x :: r.items }

/-- `for (item, ray) in iterator { body }` (as in README.md and rtbvh_ffi/src/lib.rs 566-578): `cb` is the body, which
may change the ray through the mutable reference it is handed and may `break` (second component `true`).  `fuel`
bounds the number of rounds of the iterator's inner loop. -/
def drive (step : Trav σ → Step σ ι) (cb : σ → ι → σ × Bool) : (fuel : Nat) → Trav σ → Run σ ι
  | 0, t => ⟨[], t.ray, .outOfFuel⟩
  | fuel + 1, t =>
    match step t with
    | .done => ⟨[], t.ray, .finished⟩
    | .panic => ⟨[], t.ray, .panicked⟩
    | .cont t' => drive step cb fuel t'
    | .yield x t' =>
      match cb t'.ray x with
      | (ray, true) => ⟨[x], ray, .stopped⟩
      | (ray, false) => (drive step cb fuel { t' with ray := ray }).cons x

variable [FloatOps F]

/-- NaN guard of the ray iterators' constructors (src/iter_indices.rs 33, src/iter.rs 37-38). -/
def Ray.hasNaN (r : Ray F) : Bool := r.origin.isNaN || r.direction.isNaN

/-- `Vec4::is_nan`. -/
def Vec4.isNaN (v : Vec4 F) : Bool := (v.map FloatOps.isNaN).any

/-- NaN guard of the packet iterators' constructors (src/iter_indices.rs 125-131, src/iter.rs 148-153). -/
def RayPacket4.hasNaN (p : RayPacket4 F) : Bool :=
  p.originX.isNaN || p.originY.isNaN || p.originZ.isNaN ||
  p.directionX.isNaN || p.directionY.isNaN || p.directionZ.isNaN

/-- Fresh iterator (src/iter_indices.rs 32-46, 120-144): `stack_ptr` is -1 (empty) or 0 with `stack[0] = 0`. -/
def travNew (empty : Bool) (ray : σ) : Trav σ := { ray := ray, i := 0, stack := if empty then [] else [0] }

/-- `t_near_left < t_near_right` (src/bvh_node.rs 160). -/
def closerRay (a b : F) : Bool := FloatOps.lt a b
/-- `t_near_left.cmplt(t_near_right).bitmask() > 0` (src/bvh_node.rs 193). -/
def closerPacket (a b : Vec4 F) : Bool := (a.map2 FloatOps.lt b).any

/-- A `for` loop over `bvh.traverse_iter_indices(&mut ray)` (src/bvh.rs 246-249, src/iter_indices.rs 31-46). -/
def Bvh.forIndices (b : Bvh F) (cb : Ray F → Nat → Ray F × Bool) (fuel : Nat) (ray : Ray F) : Run (Ray F) Nat :=
  drive (bvhIndexStep b.nodes b.primIndices Aabb.intersect closerRay) cb fuel
    (travNew (b.nodes.isEmpty || ray.hasNaN) ray)

/-- A `for` loop over `bvh.traverse_iter_indices_packet(&mut packet)` (src/bvh.rs 251-257, src/iter_indices.rs
123-144). -/
def Bvh.forIndicesPacket (b : Bvh F) (cb : RayPacket4 F → Nat → RayPacket4 F × Bool) (fuel : Nat) (p : RayPacket4 F) :
    Run (RayPacket4 F) Nat :=
  drive (bvhIndexStep b.nodes b.primIndices Aabb.intersect4 closerPacket) cb fuel
    (travNew (b.nodes.isEmpty || p.hasNaN) p)

/-- A `for` loop over `bvh.traverse_iter(&mut ray, primitives)` (src/bvh.rs 258-267, src/iter.rs 36-57). -/
def Bvh.forPrims {P : Type} (b : Bvh F) (primitives : List P) (cb : Ray F → P → Ray F × Bool) (fuel : Nat)
    (ray : Ray F) : Run (Ray F) P :=
  drive (bvhPrimStep b.nodes b.primIndices primitives Aabb.intersect closerRay) cb fuel
    (travNew (b.nodes.isEmpty || ray.hasNaN || primitives.isEmpty) ray)

/-- A `for` loop over `bvh.traverse_iter_packet(&mut packet, primitives)` (src/bvh.rs 268-278, src/iter.rs
146-169). -/
def Bvh.forPrimsPacket {P : Type} (b : Bvh F) (primitives : List P) (cb : RayPacket4 F → P → RayPacket4 F × Bool)
    (fuel : Nat) (p : RayPacket4 F) : Run (RayPacket4 F) P :=
  drive (bvhPrimStep b.nodes b.primIndices primitives Aabb.intersect4 closerPacket) cb fuel
    (travNew (b.nodes.isEmpty || p.hasNaN || primitives.isEmpty) p)

end Rtbvh
