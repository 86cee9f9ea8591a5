import Verif.Props.Ffi
import Verif.Props.Slab
/- Property C86: rays and packets that contain NaN. -/
namespace Rtbvh
open FloatOps
variable {F : Type} [FloatOps F]

/-- A NaN in the origin or the direction. -/
def Ray.SomeNaN (r : Ray F) : Prop := r.origin.SomeNaN ∨ r.direction.SomeNaN
/-- A NaN in some lane of the origins or directions. -/
def RayPacket4.SomeNaN (p : RayPacket4 F) : Prop :=
  ∃ v ∈ [p.originX, p.originY, p.originZ, p.directionX, p.directionY, p.directionZ], v.SomeNaN

theorem Ray.hasNaN_iff (r : Ray F) : r.hasNaN = true ↔ r.SomeNaN := by
  simp [Ray.hasNaN, Ray.SomeNaN, Vec3.isNaN_iff]
theorem RayPacket4.hasNaN_iff (p : RayPacket4 F) : p.hasNaN = true ↔ p.SomeNaN := by
  simp [RayPacket4.hasNaN, RayPacket4.SomeNaN, Vec4.isNaN_iff, or_assoc]

/-- C86, proved part: the four iterators of `Bvh` give nothing to a ray or packet that contains a NaN anywhere in its
origin or direction, on any nodes and indices whatever, and leave it as it was; so does an empty primitive slice. -/
theorem C86_bvh_nan_partial (b : Bvh F) {P : Type} (prims : List P) (fuel : Nat) (hf : 0 < fuel) :
    (∀ (ray : Ray F) cb, ray.SomeNaN → b.forIndices cb fuel ray = ⟨[], ray, .finished⟩) ∧
    (∀ (ray : Ray F) (cb : Ray F → P → Ray F × Bool), ray.SomeNaN ∨ prims = [] →
      b.forPrims prims cb fuel ray = ⟨[], ray, .finished⟩) ∧
    (∀ (p : RayPacket4 F) cb, p.SomeNaN → b.forIndicesPacket cb fuel p = ⟨[], p, .finished⟩) ∧
    (∀ (p : RayPacket4 F) (cb : RayPacket4 F → P → RayPacket4 F × Bool), p.SomeNaN ∨ prims = [] →
      b.forPrimsPacket prims cb fuel p = ⟨[], p, .finished⟩) := by
  obtain ⟨n, rfl⟩ : ∃ n, fuel = n + 1 := ⟨fuel - 1, by omega⟩
  refine ⟨fun ray cb h => ?_, fun ray cb h => ?_, fun p cb h => ?_, fun p cb h => ?_⟩
  · unfold Bvh.forIndices travNew
    rw [(Ray.hasNaN_iff ray).2 h]
    simp [drive, bvhIndexStep]
  · unfold Bvh.forPrims travNew
    have : (b.nodes.isEmpty || ray.hasNaN || prims.isEmpty) = true := by
      rcases h with h | h
      · rw [(Ray.hasNaN_iff ray).2 h]; simp
      · rw [h]; simp
    rw [this]
    simp [drive, bvhPrimStep]
  · unfold Bvh.forIndicesPacket travNew
    rw [(RayPacket4.hasNaN_iff p).2 h]
    simp [drive, bvhIndexStep]
  · unfold Bvh.forPrimsPacket travNew
    have : (b.nodes.isEmpty || p.hasNaN || prims.isEmpty) = true := by
      rcases h with h | h
      · rw [(RayPacket4.hasNaN_iff p).2 h]; simp
      · rw [h]; simp
    rw [this]
    simp [drive, bvhPrimStep]

/-- The guard refuses nothing else: without NaN the iterators of a non-empty `Bvh` start at the root. -/
theorem C86_guard_exact (b : Bvh F) (ray : Ray F) (hb : b.nodes ≠ []) (hn : ¬ ray.SomeNaN) (cb fuel) :
    b.forIndices cb fuel ray =
      drive (bvhIndexStep b.nodes b.primIndices Aabb.intersect closerRay) cb fuel { ray := ray, i := 0, stack := [0] } := by
  have h1 : ray.hasNaN = false := by
    cases e : ray.hasNaN with
    | false => rfl
    | true => exact absurd ((Ray.hasNaN_iff ray).1 e) hn
  have h2 : b.nodes.isEmpty = false := by cases h : b.nodes with
    | nil => exact absurd h hb
    | cons => rfl
  unfold Bvh.forIndices travNew
  rw [h1, h2]; rfl

/-- A ray whose origin has a NaN x coordinate. -/
def nanRay : Ray F32 := Ray.new ⟨(zero : F32) /. zero, zero, zero⟩ ⟨one, one, one⟩
/-- A packet with the same NaN in its first lane only. -/
def nanPacket : RayPacket4 F32 :=
  { twoPacket with originX := ⟨(zero : F32) /. zero, twoPacket.originX.y, twoPacket.originX.z, twoPacket.originX.w⟩ }

/-- C86 as stated fails for the 4-wide BVH: its iterators have no guard, and a ray with a NaN coordinate, which gets
nothing from the BVH, is offered both primitives by the 4-wide BVH made from it. -/
theorem C86_mbvh_no_guard : nanRay.SomeNaN ∧ ∃ q, Mbvh.construct 65 twoBvh = some q ∧
    (q.forIndices (fun r _ => (r, false)) 100 nanRay).items = [1, 0] ∧
    (twoBvh.forIndices (fun r _ => (r, false)) 100 nanRay).items = [] := by
  refine ⟨(Ray.hasNaN_iff _).1 (by decide +kernel), ?_⟩
  have h : ((Mbvh.construct 65 twoBvh).map fun q => (q.forIndices (fun r _ => (r, false)) 100 nanRay).items) =
      some [1, 0] := by decide +kernel
  rw [Option.map_eq_some_iff] at h
  obtain ⟨q, e, h⟩ := h
  exact ⟨q, e, h, by decide +kernel⟩

/-- Non-vacuity: one NaN lane is enough for the packet guard, and without it the packet is offered both primitives. -/
example : nanPacket.SomeNaN ∧ (twoBvh.forIndicesPacket (fun q _ => (q, false)) 100 nanPacket).items = [] ∧
    (twoBvh.forIndicesPacket (fun q _ => (q, false)) 100 twoPacket).items = [1, 0] :=
  ⟨(RayPacket4.hasNaN_iff _).1 (by decide +kernel), by decide +kernel, by decide +kernel⟩

end Rtbvh
