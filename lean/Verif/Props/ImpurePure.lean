import Verif.Proofs.ImpurePure
/- Property C101: truthful answers give the pure build. -/
namespace Rtbvh
open FloatOps
variable {F : Type} [FloatOps F]

/-- C101, the tie to the pure build: a history in which every answer of `center()` is the center the primitive was described
with gives exactly what `Builder.constructBinnedSah` gives under the schedule of that history: unfinished together, and in
the end the same BVH, bit for bit.  (The build with answers reorders a task's ids before the allocation, as the code does;
the model of the pure build does so after it.  This shows that nobody can tell.) -/
theorem C101_pure_same (b : Builder F) (order : List Nat) (h : b.Legal order) (es : List (Nat × Answers F))
    (hbin : ∀ x ∈ es, ∀ p q axis, b.primitives[p]? = some q → x.2.bin p axis = q.center)
    (hpart : ∀ x ∈ es, ∀ p q, b.primitives[p]? = some q → x.2.part p = q.center) :
    b.constructBinnedWith order es = b.constructBinnedSah order (es.map Prod.fst) := by
  have hs := Builder.setting h
  have hc : ∀ {p : Nat} {c : Vec3 F}, (b.ctx order).centers[p]? = some c → ∃ q : Prim F, b.primitives[p]? = some q ∧ q.center = c := by
    intro p c hpc
    have : (b.primitives.map Prim.center)[p]? = some c := hpc
    rw [List.getElem?_map, Option.map_eq_some_iff] at this
    exact this
  have hes : ∀ x ∈ es, x.2.Pure (b.ctx order) := by
    intro x hx
    refine ⟨fun p c axis hpc => ?_, fun p c hpc => ?_⟩
    · obtain ⟨q, e, rfl⟩ := hc hpc
      exact hbin x hx p q axis e
    · obtain ⟨q, e, rfl⟩ := hc hpc
      exact hpart x hx p q e
  obtain ⟨T, P, _, _, hI⟩ := binnedInit_inv hs (le_trans h.small (by norm_num))
  obtain ⟨s', w', e1, e2, ht⟩ := Twin.exec es hes hI (Twin.init _)
  have hne : ¬ ((b.ctx order).centers.length ≠ (b.ctx order).aabbs.length ∨ (b.ctx order).centers = [] ∨
      (b.ctx order).aabbs = []) := by
    have h1 := hs.aabbs
    have h2 := hs.centers
    have h3 := hs.pos
    rintro (hh | hh | hh)
    · omega
    · rw [hh] at h2; simp at h2; omega
    · rw [hh] at h1; simp at h1; omega
  rw [Builder.constructWith_eq h, Builder.construct_eq h, e2]
  unfold binnedBuild
  rw [if_neg hne, e1]
  dsimp only
  by_cases hp : s'.pending = []
  · have hw : w'.pending = [] := by rw [ht.pending, hp]; rfl
    have hprims : w'.prims = s'.prims := by
      apply List.ext_getElem?
      intro i
      exact ht.same i (by rw [hp]; simp)
    rw [if_pos hp, hw, if_pos List.isEmpty_nil]
    unfold withFinish binnedFinish
    rw [ht.nodes, ht.counter, hprims]
  · have hw : w'.pending ≠ [] := by rw [ht.pending]; simpa using hp
    rw [if_neg hp, if_neg (by simpa using hw)]
/-- Truthful answers, the last pending task first. -/
example : moodyScene.Legal (List.range 4) ∧
    (∀ p q axis, moodyScene.primitives[p]? = some q → (moodyAnswers 0).bin p axis = q.center) ∧
    (∀ p q, moodyScene.primitives[p]? = some q → (moodyAnswers 0).part p = q.center) ∧
    (builtTree (moodyScene.constructBinnedSah (List.range 4) [0, 0, 1, 1, 1, 1, 0, 0, 0, 0])).isSome = true := by
  have key : ∀ p : Nat, p < 4 → ∀ q, moodyScene.primitives[p]? = some q → (∀ axis, (moodyAnswers 0).bin p axis = q.center) ∧
      (moodyAnswers 0).part p = q.center := by
    have : ∀ p : Nat, p < 4 → (moodyScene.primitives[p]?).map Prim.center = some ⟨lit (10 * p) 0, zero, zero⟩ := by decide +kernel
    intro p hp q hq
    have h := this p hp
    rw [hq, Option.map_some, Option.some.injEq] at h
    exact ⟨fun _ => h.symm, h.symm⟩
  have hlt : ∀ {p : Nat} {q}, moodyScene.primitives[p]? = some q → p < 4 := fun h => (List.getElem?_eq_some_iff.1 h).1
  exact ⟨cubeScene_legal _ _ (by decide) (by decide), fun p q axis h => (key p (hlt h) q h).1 axis,
    fun p q h => (key p (hlt h) q h).2, by decide +kernel⟩

end Rtbvh
