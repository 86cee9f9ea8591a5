import Verif.Spec.Closest
/- What a picture should show (exact arithmetic): used by C91. -/
namespace Rtbvh

/-- `o` is the right primitive to show for a ray that meets primitive `p` at the parameters `hits p` and looks at the
parameters with `seen`: nothing if no primitive of `ids` is met at a seen parameter, otherwise a primitive met at a seen
parameter before (or where) any other is. -/
def Shown (hits : Nat → Rat → Prop) (ids : List Nat) (seen : Rat → Prop) : Option Nat → Prop
  | some p => p ∈ ids ∧ ∃ s, hits p s ∧ seen s ∧ ∀ q ∈ ids, ∀ s', hits q s' → seen s' → s ≤ s'
  | none => ∀ q ∈ ids, ∀ s, hits q s → ¬ seen s

end Rtbvh
