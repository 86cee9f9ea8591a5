import Verif.Model.Binned
/- Specification vocabulary: schedules of the concurrent build. -/
namespace Rtbvh
variable {F : Type} [FloatOps F]

/-- Every choice of the schedule names a task that is pending at that moment. -/
def LegalSchedule (ctx : BinnedCtx F) : List Nat → BinnedState F → Prop
  | [], _ => True
  | k :: ks, s => k < s.pending.length ∧ ∀ s', binnedStep ctx s k = some s' → LegalSchedule ctx ks s'

end Rtbvh
