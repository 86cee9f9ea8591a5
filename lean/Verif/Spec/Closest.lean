import Verif.Spec.Bounded
/- Specification of closest-hit queries, in exact arithmetic. -/
namespace Rtbvh

/-- A closest-hit test for the ray `ray`, used as the body of a traversal loop: it only lowers `ray.t` and does not
break, and on primitive `p` it replaces `ray.t` by the smallest hit distance of `p` strictly between `t_min` and
`ray.t` if there is one.  `hits p` is the set of distances at which the ray meets primitive `p`. -/
def ClosestHit (ray : Ray Rat) (hits : Nat → Rat → Prop) (cb : Ray Rat → Nat → Ray Rat × Bool) : Prop :=
  (∀ r p, ∃ t' ≤ r.t, cb r p = ({ r with t := t' }, false)) ∧
  ∀ t p, ∃ t', cb { ray with t := t } p = ({ ray with t := t' }, false) ∧ t' ≤ t ∧
    (∀ s, hits p s → ray.tMin < s → s < t → t' ≤ s) ∧ (t' = t ∨ (hits p t' ∧ ray.tMin < t'))

/-- `t` is the brute-force answer over the primitives in `ids`: the minimum of `t₀` and of all hit distances in
`(tMin, t₀)`. -/
structure IsNearest (hits : Nat → Rat → Prop) (ids : List Nat) (tMin t₀ t : Rat) : Prop where
  le : t ≤ t₀
  lower : ∀ p ∈ ids, ∀ s, hits p s → tMin < s → s < t₀ → t ≤ s
  attained : t = t₀ ∨ ∃ p ∈ ids, hits p t ∧ tMin < t

/-- `t` is the brute-force answer over the primitives in `ids` for hits at or beyond `tMin`: the minimum of `t₀` and of
all hit distances in `[tMin, t₀)`. -/
structure IsNearestFrom (hits : Nat → Rat → Prop) (ids : List Nat) (tMin t₀ t : Rat) : Prop where
  le : t ≤ t₀
  lower : ∀ p ∈ ids, ∀ s, hits p s → tMin ≤ s → s < t₀ → t ≤ s
  attained : t = t₀ ∨ ∃ p ∈ ids, hits p t ∧ tMin ≤ t

/-- A closest-hit test for the packet `pk` with lower ends `tMin`, used as the body of a traversal loop: it changes only
`packet.t`, lowers each lane, does not break, and on primitive `p` replaces each lane's `t` by the smallest hit distance of
`p` in `[tMin, t)` in that lane, if there is one.  `hits i p` is the set of distances at which lane `i` meets `p`. -/
def PacketClosest (pk : RayPacket4 Rat) (tMin : Vec4 Rat) (hits : Fin 4 → Nat → Rat → Prop)
    (cb : RayPacket4 Rat → Nat → RayPacket4 Rat × Bool) : Prop :=
  (∀ q p, ∃ t', cb q p = ({ q with t := t' }, false) ∧ ∀ i, t'.get i ≤ q.t.get i) ∧
  ∀ t p, ∃ t', cb { pk with t := t } p = ({ pk with t := t' }, false) ∧ ∀ i, t'.get i ≤ t.get i ∧
    (∀ s, hits i p s → tMin.get i ≤ s → s < t.get i → t'.get i ≤ s) ∧
    (t'.get i = t.get i ∨ (hits i p (t'.get i) ∧ tMin.get i ≤ t'.get i))

/-- The reciprocal directions are those `RayPacket4::new` computes. -/
def RayPacket4.WellFormed {F : Type} [FloatOps F] (p : RayPacket4 F) : Prop :=
  ∀ i, p.invOf i = recip3 ⟨p.directionX.get i, p.directionY.get i, p.directionZ.get i⟩

end Rtbvh
