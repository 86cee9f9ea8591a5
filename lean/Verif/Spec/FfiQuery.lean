import Verif.Model.FfiCreate
import Verif.Spec.Ffi
/- Specification vocabulary for the C interface from creation to query (C80): what a well-behaved client does. -/
namespace Rtbvh
variable {F : Type}

/-- The call refits or frees the BVH with this id. -/
def touches (id : Nat) (e : Event F) : Bool :=
  match e.call with
  | .refit _ h => h.id == id
  | .freeBvh h => h.id == id
  | _ => false

/-- C callbacks that never stop the loop and only lower `*t`. -/
def LowersT [FloatOps F] {D : Type} (cb : Nat → F → D → F × D × Bool) : Prop :=
  ∀ id t d, (cb id t d).2.2 = false ∧ ((cb id t d).1 = t ∨ ((cb id t d).1 <=. t) = true)

/-- The same for the packet functions, lane by lane. -/
def LowersT4 [FloatOps F] {D : Type} (cb : Nat → Vec4 F → D → Vec4 F × D × Bool) : Prop :=
  ∀ id t d, (cb id t d).2.2 = false ∧ ∀ i, (cb id t d).1.get i = t.get i ∨ ((cb id t d).1.get i <=. t.get i) = true

/-- The builds this property speaks about: the clustering builder, and the binned builder when `prims_per_leaf` covers the
whole scene, so that its median fallback cannot run. -/
def FfiBvhType.Faithful (ty : FfiBvhType) (n ppl : Nat) : Prop := ty = .locallyOrderedClustered ∨ n ≤ ppl

end Rtbvh
