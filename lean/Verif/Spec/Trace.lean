import Verif.Spec.Triangle
/- Specification of "tracing through the hierarchy finds what testing every triangle finds" (C93). -/
namespace Rtbvh
variable {F : Type} [FloatOps F]
open FloatOps

/-- Testing every triangle of the mesh in turn, without any hierarchy: the ray after the last test. -/
def testAll (tris : List (Triangle F)) (ray : Ray F) : Ray F := tris.foldl (fun r tr => (tr.intersect r).1) ray

/-- Testing every triangle of the mesh in turn with a packet. -/
def testAll4 (tris : List (Triangle F)) (tMin : Vec4 F) (pk : RayPacket4 F) : RayPacket4 F :=
  tris.foldl (fun q tr => (tr.intersect4 q tMin).1) pk

/-- The same ray parameter: identical, or numerically equal (`0.0 == -0.0`). -/
def Same (a b : F) : Prop := a = b ∨ ((a <=. b) = true ∧ (b <=. a) = true)

/-- The box test of a `Bvh` node lets through every triangle its own test accepts: whenever `intersect` accepts triangle
`p` on this ray, for whatever current upper end `T`, the ray also hits the box given for `p`. -/
def BoxesAgree (tris : List (Triangle F)) (boxes : Nat → Aabb F) (test : Aabb F → Ray F → Bool) (ray : Ray F) : Prop :=
  ∀ p tr T, tris[p]? = some tr → (tr.intersect { ray with t := T }).2 = true → test (boxes p) { ray with t := T } = true

/-- The same for lane `i` of a packet. -/
def BoxesAgree4 (tris : List (Triangle F)) (tMin : Vec4 F) (boxes : Nat → Aabb F)
    (test : Aabb F → RayPacket4 F → Fin 4 → Bool) (pk : RayPacket4 F) (i : Fin 4) : Prop :=
  ∀ p tr T, tris[p]? = some tr → laneHit (tr.intersect4 { pk with t := T } tMin).2 i = true →
    test (boxes p) { pk with t := T } i = true

end Rtbvh
