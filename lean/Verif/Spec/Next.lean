import Verif.Model.Next
/- Vocabulary for clients that call `next()` themselves (C94). -/
namespace Rtbvh
variable {σ ι D : Type}

/-- With the results `results`, starting from memory `d` and ray `ray`, the client finds at every call exactly the ray it
left after the call before: nobody but the client changes the ray. -/
def FindsRay (client : D → σ → Option ι → D × σ × Bool) : D → σ → List (Option ι × σ) → Prop
  | _, _, [] => True
  | d, ray, (o, r) :: rest => r = ray ∧ FindsRay client (client d r o).1 (client d r o).2.1 rest

/-- After the first `None` there is only `None`. -/
def Fused (results : List (Option ι × σ)) : Prop :=
  ∃ (items : List ι) (k : Nat), results.map Prod.fst = items.map some ++ List.replicate k none

/-- The calls went as in a `for` loop whose body has no memory: the body `cb` does with every ray and item something the
client does in some state of its memory, and the loop `loop cb` hands out the client's items first; all of them and nothing
else, finishing with the ray the client finds, if the client got to a `None`; and all of them and nothing else, breaking
with the ray the client leaves, if the client stopped before. -/
def LikeALoop (client : D → σ → Option ι → D × σ × Bool) (loop : (σ → ι → σ × Bool) → Run σ ι) (s : Session σ ι D) : Prop :=
  ∃ (items : List ι) (k : Nat) (cb : σ → ι → σ × Bool),
    s.results.map Prod.fst = items.map some ++ List.replicate k none ∧
    (∀ r x, ∃ d, cb r x = (client d r (some x)).2) ∧
    items <+: (loop cb).items ∧
    (0 < k → (loop cb).items = items ∧ (loop cb).ending = .finished ∧
      s.results[items.length]? = some (none, (loop cb).ray)) ∧
    (k = 0 → s.ending = .stopped → (loop cb).items = items ∧ (loop cb).ending = .stopped ∧ (loop cb).ray = s.ray)

end Rtbvh
