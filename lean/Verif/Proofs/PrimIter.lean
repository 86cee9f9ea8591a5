import Verif.Proofs.Visit
/- The primitive iterators simulate the index iterators when every stored id names a primitive. -/
namespace Rtbvh
variable {F σ τ P : Type}

/-- Rename the items of a step. -/
def Step.mapItems {ι κ : Type} (f : ι → Option κ) : Step σ ι → Option (Step σ κ)
  | .done => some .done
  | .panic => some .panic
  | .cont t => some (.cont t)
  | .yield x t => (f x).map (fun y => .yield y t)

theorem bvhPrimStep_sim {nodes : List (BvhNode F)} {indices : List Nat} {prims : List P}
    {hit : Aabb F → σ → Option τ} {closer : τ → τ → Bool} (h : ∀ id ∈ indices, id < prims.length) (t : Trav σ) :
    (bvhIndexStep nodes indices hit closer t).mapItems (fun id => prims[id]?) =
      some (bvhPrimStep nodes indices prims hit closer t) := by
  unfold bvhIndexStep bvhPrimStep
  split
  · rfl
  · split
    · rfl
    · simp only
      split
      · split
        · split
          · rfl
          · rename_i id hid
            have hmem : id ∈ indices := by
              unfold atI32 at hid
              split at hid
              · exact List.mem_of_getElem? hid
              · cases hid
            have hlt := h id hmem
            simp [Step.mapItems, hlt]
        · rfl
      · split
        · split
          · split <;> rfl
          · rfl
        · rfl

theorem drive_sim {ι κ : Type} {s1 : Trav σ → Step σ ι} {s2 : Trav σ → Step σ κ} {f : ι → Option κ}
    (h : ∀ t, (s1 t).mapItems f = some (s2 t)) (cb : σ → κ → σ × Bool) (cb' : σ → ι → σ × Bool)
    (hcb : ∀ r x y, f x = some y → cb' r x = cb r y) (fuel : Nat) (t : Trav σ) :
    (drive s2 cb fuel t).items.map some = (drive s1 cb' fuel t).items.map f ∧
    (drive s2 cb fuel t).ray = (drive s1 cb' fuel t).ray ∧
    (drive s2 cb fuel t).ending = (drive s1 cb' fuel t).ending := by
  induction fuel generalizing t with
  | zero => exact ⟨rfl, rfl, rfl⟩
  | succ fuel ih =>
    have ht := h t
    simp only [drive]
    cases e : s1 t with
    | done => rw [e] at ht; simp only [Step.mapItems, Option.some.injEq] at ht; rw [← ht]; exact ⟨rfl, rfl, rfl⟩
    | panic => rw [e] at ht; simp only [Step.mapItems, Option.some.injEq] at ht; rw [← ht]; exact ⟨rfl, rfl, rfl⟩
    | cont t' => rw [e] at ht; simp only [Step.mapItems, Option.some.injEq] at ht; rw [← ht]; exact ih t'
    | yield x t' =>
      rw [e] at ht
      simp only [Step.mapItems] at ht
      cases fx : f x with
      | none => rw [fx] at ht; simp at ht
      | some y =>
        rw [fx] at ht
        simp only [Option.map_some, Option.some.injEq] at ht
        rw [← ht]
        simp only [hcb _ _ _ fx]
        cases hc : cb t'.ray y with
        | mk ray' stop =>
          cases stop with
          | true => exact ⟨by simp [fx], rfl, rfl⟩
          | false =>
            obtain ⟨h1, h2, h3⟩ := ih { t' with ray := ray' }
            exact ⟨by simp [Run.cons, fx, h1], h2, h3⟩

end Rtbvh
