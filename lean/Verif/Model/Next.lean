import Verif.Model.Mbvh
import Verif.Model.BvhOps
/- The iterators call by call: `next()` as a function of its own, and a client that makes calls one after the other,
remembers what it likes, changes the ray in between and may go on calling after `None`.  src/iter.rs 83-127, 198-242,
310-354, 423-468 and src/iter_indices.rs 66-106, 169-209, 275-312, 377-414. -/
namespace Rtbvh
variable {F σ τ ι D P : Type}

/-- One round of the `loop` of `next`, whatever the iterator's fields (`τ`). -/
inductive Round (τ ι : Type)
  | done
  | panic
  | cont (t : τ)
  | yield (item : ι) (t : τ)
deriving DecidableEq, Repr

/-- A round of a `Bvh` iterator (src/iter_indices.rs 66-106). -/
def Step.toRound : Step σ ι → Round (Trav σ) ι
  | .done => .done
  | .panic => .panic
  | .cont t => .cont t
  | .yield x t => .yield x t

/-- A round of an `Mbvh` iterator (src/iter_indices.rs 275-312). -/
def QStep.toRound : QStep σ ι → Round (QTrav σ) ι
  | .done => .done
  | .panic => .panic
  | .cont t => .cont t
  | .yield x t => .yield x t

/-- What a call of `next()` comes to: `Some(item)` or `None`, with the iterator's fields afterwards; a panic or an access
out of bounds; or it has not returned yet. -/
inductive Called (τ ι : Type)
  | item (x : ι) (t : τ)
  | none (t : τ)
  | panic
  | running
deriving DecidableEq, Repr

/-- A call of `next()`: its `loop`, for at most `fuel` rounds (src/iter_indices.rs 66-106 and the seven others). -/
def callNext (round : τ → Round τ ι) : (fuel : Nat) → τ → Called τ ι
  | 0, _ => .running
  | fuel + 1, t =>
    match round t with
    | .done => .none t
    | .panic => .panic
    | .cont t' => callNext round fuel t'
    | .yield x t' => .item x t'

/-- How a sequence of calls ends: the client stops, the client has made the given number of calls and may make more, a call
panics, a call does not return. -/
inductive SessionEnd
  | stopped
  | more
  | panicked
  | running
deriving DecidableEq, Repr

/-- What happens in a sequence of calls: the results, each with the ray as the client finds it then; at the end the ray and
the client's memory. -/
structure Session (σ ι D : Type) where
  results : List (Option ι × σ)
  ray : σ
  memory : D
  ending : SessionEnd
deriving DecidableEq, Repr

/-- Put a result in front. -/
def Session.cons (x : Option ι × σ) (s : Session σ ι D) : Session σ ι D := { s with results := x :: s.results }

/-- A client of an iterator.  After each call of `next()` it gets the result and, through the mutable reference, the ray;
from these and its memory it makes its next memory, leaves a ray, and decides whether to stop.  (A reference kept from an
earlier call points to the same ray.)  It may go on after `None`.  At most `calls` calls, at most `fuel` rounds each. -/
def session (round : τ → Round τ ι) (get : τ → σ) (set : σ → τ → τ) (client : D → σ → Option ι → D × σ × Bool)
    (fuel : Nat) : (calls : Nat) → D → τ → Session σ ι D
  | 0, d, t => ⟨[], get t, d, .more⟩
  | calls + 1, d, t =>
    match callNext round fuel t with
    | .panic => ⟨[], get t, d, .panicked⟩
    | .running => ⟨[], get t, d, .running⟩
    | .none t' =>
      match client d (get t') none with
      | (d', r, true) => ⟨[(none, get t')], r, d', .stopped⟩
      | (d', r, false) => (session round get set client fuel calls d' (set r t')).cons (none, get t')
    | .item x t' =>
      match client d (get t') (some x) with
      | (d', r, true) => ⟨[(some x, get t')], r, d', .stopped⟩
      | (d', r, false) => (session round get set client fuel calls d' (set r t')).cons (some x, get t')

/-- The ray behind the reference of a `Bvh` iterator is replaced. -/
def Trav.setRay (r : σ) (t : Trav σ) : Trav σ := { t with ray := r }
/-- The ray behind the reference of an `Mbvh` iterator is replaced. -/
def QTrav.setRay (r : σ) (t : QTrav σ) : QTrav σ := { t with ray := r }

variable [FloatOps F]

/-- Calls of `next()` on `bvh.traverse_iter_indices(&mut ray)` (src/bvh.rs 246-249, src/iter_indices.rs 31-106). -/
def Bvh.clientIndices (b : Bvh F) (client : D → Ray F → Option Nat → D × Ray F × Bool) (fuel calls : Nat) (d : D)
    (ray : Ray F) : Session (Ray F) Nat D :=
  session (fun t => (bvhIndexStep b.nodes b.primIndices Aabb.intersect closerRay t).toRound) Trav.ray Trav.setRay client
    fuel calls d (travNew (b.nodes.isEmpty || ray.hasNaN) ray)

/-- Calls of `next()` on `bvh.traverse_iter_indices_packet(&mut packet)` (src/bvh.rs 251-257, src/iter_indices.rs
123-209). -/
def Bvh.clientIndicesPacket (b : Bvh F) (client : D → RayPacket4 F → Option Nat → D × RayPacket4 F × Bool)
    (fuel calls : Nat) (d : D) (p : RayPacket4 F) : Session (RayPacket4 F) Nat D :=
  session (fun t => (bvhIndexStep b.nodes b.primIndices Aabb.intersect4 closerPacket t).toRound) Trav.ray Trav.setRay
    client fuel calls d (travNew (b.nodes.isEmpty || p.hasNaN) p)

/-- Calls of `next()` on `bvh.traverse_iter(&mut ray, primitives)` (src/bvh.rs 258-267, src/iter.rs 36-127). -/
def Bvh.clientPrims (b : Bvh F) (primitives : List P) (client : D → Ray F → Option P → D × Ray F × Bool)
    (fuel calls : Nat) (d : D) (ray : Ray F) : Session (Ray F) P D :=
  session (fun t => (bvhPrimStep b.nodes b.primIndices primitives Aabb.intersect closerRay t).toRound) Trav.ray Trav.setRay
    client fuel calls d (travNew (b.nodes.isEmpty || ray.hasNaN || primitives.isEmpty) ray)

/-- Calls of `next()` on `bvh.traverse_iter_packet(&mut packet, primitives)` (src/bvh.rs 268-278, src/iter.rs
146-242). -/
def Bvh.clientPrimsPacket (b : Bvh F) (primitives : List P)
    (client : D → RayPacket4 F → Option P → D × RayPacket4 F × Bool) (fuel calls : Nat) (d : D) (p : RayPacket4 F) :
    Session (RayPacket4 F) P D :=
  session (fun t => (bvhPrimStep b.nodes b.primIndices primitives Aabb.intersect4 closerPacket t).toRound) Trav.ray
    Trav.setRay client fuel calls d (travNew (b.nodes.isEmpty || p.hasNaN || primitives.isEmpty) p)

/-- Calls of `next()` on `mbvh.traverse_iter_indices(&mut ray)` (src/bvh.rs 426-428, src/iter_indices.rs 213-313). -/
def Mbvh.clientIndices (b : Mbvh F) (client : D → Ray F → Option Nat → D × Ray F × Bool) (fuel calls : Nat) (d : D)
    (ray : Ray F) : Session (Ray F) Nat D :=
  session (fun t => (quadStep b.mNodes b.primIndices some quadHit t).toRound) QTrav.ray QTrav.setRay client
    fuel calls d (qtravNew b.mNodes quadHit ray)

/-- Calls of `next()` on `mbvh.traverse_iter_indices_packet(&mut packet)` (src/bvh.rs 438-443, src/iter_indices.rs
316-415). -/
def Mbvh.clientIndicesPacket (b : Mbvh F) (client : D → RayPacket4 F → Option Nat → D × RayPacket4 F × Bool)
    (fuel calls : Nat) (d : D) (p : RayPacket4 F) : Session (RayPacket4 F) Nat D :=
  session (fun t => (quadStep b.mNodes b.primIndices some quadHit4 t).toRound) QTrav.ray QTrav.setRay client
    fuel calls d (qtravNew b.mNodes quadHit4 p)

/-- Calls of `next()` on `mbvh.traverse_iter(&mut ray, primitives)` (src/bvh.rs 418-424, src/iter.rs 246-355). -/
def Mbvh.clientPrims (b : Mbvh F) (primitives : List P) (client : D → Ray F → Option P → D × Ray F × Bool)
    (fuel calls : Nat) (d : D) (ray : Ray F) : Session (Ray F) P D :=
  session (fun t => (quadStep b.mNodes b.primIndices (fun id => primitives[id]?) quadHit t).toRound) QTrav.ray QTrav.setRay
    client fuel calls d (qtravNew b.mNodes quadHit ray)

/-- Calls of `next()` on `mbvh.traverse_iter_packet(&mut packet, primitives)` (src/bvh.rs 430-436, src/iter.rs
358-469). -/
def Mbvh.clientPrimsPacket (b : Mbvh F) (primitives : List P)
    (client : D → RayPacket4 F → Option P → D × RayPacket4 F × Bool) (fuel calls : Nat) (d : D) (p : RayPacket4 F) :
    Session (RayPacket4 F) P D :=
  session (fun t => (quadStep b.mNodes b.primIndices (fun id => primitives[id]?) quadHit4 t).toRound) QTrav.ray
    QTrav.setRay client fuel calls d (qtravNew b.mNodes quadHit4 p)

end Rtbvh
