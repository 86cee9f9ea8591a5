import Verif.Model.Binned
/- Model of `Builder` (src/bvh.rs 48-138). -/
namespace Rtbvh
variable {F : Type}

/-- A user primitive as seen by the builders: the values of `center()` and `aabb()` (src/bvh.rs 10-14). -/
structure Prim (F : Type) where
  center : Vec3 F
  aabb : Aabb F
deriving DecidableEq, Repr

/-- A box used as a primitive, `impl Primitive for Aabb` (src/aabb.rs 436-444). -/
def Prim.ofAabb [FloatOps F] (a : Aabb F) : Prim F := ⟨a.center, a⟩

/-- `BuildError` (src/bvh.rs 26-29). -/
inductive BuildError
  | noPrimitives
  | inequalAabbsAndPrimitives (aabbs prims : Nat)
deriving DecidableEq, Repr

/-- `Builder` (src/bvh.rs 49-56); `primitives_per_leaf` is an optional non-zero number. -/
structure Builder (F : Type) where
  aabbs : Option (List (Aabb F))
  primitives : List (Prim F)
  primitivesPerLeaf : Option Nat
deriving Repr

/-- `primitives.iter().par_bridge().map(|p| p.aabb()).collect::<Vec<_>>()` (src/bvh.rs 77-82, 102-107, 128-133).
Rayon's `par_bridge` does not keep the order of the input: the items arrive in an order decided by the thread
schedule, given here as the list `order` of primitive indices (a permutation of `0..n`). -/
def collectAabbs (order : List Nat) (prims : List (Prim F)) : List (Aabb F) :=
  order.filterMap fun i => (prims[i]?).map Prim.aabb

/-- The checks shared by the three constructors (src/bvh.rs 63-84, 88-110, 114-136): an error, or the boxes handed
to the build algorithm. -/
def Builder.check (b : Builder F) (order : List Nat) : Except BuildError (List (Aabb F)) :=
  if b.primitives = [] then .error .noPrimitives
  else
    match b.aabbs with
    | some aabbs =>
      if aabbs.length ≠ b.primitives.length then
        .error (.inequalAabbsAndPrimitives aabbs.length b.primitives.length)
      else .ok aabbs
    | none => .ok (collectAabbs order b.primitives)

/-- `Builder::construct_binned_sah` (src/bvh.rs 87-111) under a given arrival order of `par_bridge` and a given task
schedule.  Inner result as for `binnedBuild`. -/
def Builder.constructBinnedSah [FloatOps F] (b : Builder F) (order schedule : List Nat) :
    Except BuildError (Option (Option (Bvh F))) :=
  match b.check order with
  | .error e => .error e
  | .ok aabbs =>
    .ok (binnedBuild (BinnedCtx.new aabbs (b.primitives.map Prim.center) b.primitivesPerLeaf) schedule)

end Rtbvh
