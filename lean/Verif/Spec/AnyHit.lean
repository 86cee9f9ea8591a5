import Verif.Spec.Visit
/- Specification of occlusion ("any hit") queries: test each yielded primitive, stop at the first success. -/
namespace Rtbvh
variable {σ ι : Type}

/-- A caller that stops at the first primitive it likes and leaves the ray alone until then. -/
def AnyHit (cb : σ → ι → σ × Bool) : Prop := ∀ r p, (cb r p).2 = false → (cb r p).1 = r

/-- The run ended at the first yielded primitive that succeeds on the initial ray. -/
def FirstSuccess (cb : σ → ι → σ × Bool) (ray : σ) (run : Run σ ι) : Prop :=
  ∃ init p, run.items = init ++ [p] ∧ (∀ x ∈ init, (cb ray x).2 = false) ∧ cb ray p = (run.ray, true)

/-- The answer of an occlusion query over the primitives `ids`: the loop is broken exactly if some primitive succeeds,
then at the first that does; otherwise it runs to its end and the ray is as before. -/
def Occlusion (cb : σ → ι → σ × Bool) (ids : List ι) (ray : σ) (run : Run σ ι) : Prop :=
  (run.ending = .stopped ↔ ∃ p ∈ ids, (cb ray p).2 = true) ∧
  (run.ending = .finished ↔ ∀ p ∈ ids, (cb ray p).2 = false) ∧
  (run.ending = .stopped → FirstSuccess cb ray run) ∧
  (run.ending = .finished → run.ray = ray)

end Rtbvh
