import Verif.Proofs.F32Laws
import Verif.Spec.Slab
/- Numerical equality of binary32 values (`0.0 == -0.0`) is respected by `-`, `*`, comparisons, min and max. -/
namespace Rtbvh
namespace F32

/-- Numerically equal, or both NaN. -/
def Sim (a b : F32) : Prop := a.isNaN = b.isNaN ∧ a.ord = b.ord

theorem Sim.refl (a : F32) : Sim a a := ⟨rfl, rfl⟩

theorem Sim.cases {a b : F32} (h : Sim a b) : a = b ∨ ∃ s s' h, a = fin s 0 h ∧ b = fin s' 0 h := by
  obtain ⟨h1, h2⟩ := h
  have := f32Top_pos
  cases a with
  | nan => cases b <;> simp_all [isNaN]
  | inf s =>
    cases b with
    | nan => simp [isNaN] at h1
    | inf s' => left; cases s <;> cases s' <;> simp [ord] at h2 ⊢ <;> omega
    | fin s' k' hk' =>
      have := fin_lt_top k' hk'
      exfalso; cases s <;> cases s' <;> simp [ord] at h2 <;> omega
  | fin s k hk =>
    cases b with
    | nan => simp [isNaN] at h1
    | inf s' =>
      have := fin_lt_top k hk
      exfalso; cases s <;> cases s' <;> simp [ord] at h2 <;> omega
    | fin s' k' hk' =>
      by_cases h0 : k = 0
      · subst h0
        have : k' = 0 := by cases s <;> cases s' <;> simp [ord] at h2 <;> omega
        subst this
        exact .inr ⟨s, s', hk, rfl, rfl⟩
      · left
        cases s <;> cases s' <;> simp [ord] at h2 ⊢ <;> omega

theorem Sim.eq_of_ne {a b : F32} (h : Sim a b) (h0 : a.ord ≠ 0) : a = b := by
  rcases h.cases with h | ⟨s, s', hk, rfl, rfl⟩
  · exact h
  · exact absurd (by cases s <;> simp [ord]) h0

theorem Sim.neg {a b : F32} (h : Sim a b) : Sim a.neg b.neg := by
  obtain ⟨h1, h2⟩ := h
  exact ⟨by rw [isNaN_neg, isNaN_neg, h1], by rw [ord_neg, ord_neg, h2]⟩

theorem Sim.add_left {a b : F32} (h : Sim a b) (c : F32) : Sim (a.add c) (b.add c) := by
  rcases h.cases with rfl | ⟨s, s', hk, rfl, rfl⟩
  · exact Sim.refl _
  · cases c with
    | nan => exact ⟨rfl, rfl⟩
    | inf sc => exact ⟨rfl, rfl⟩
    | fin sc kc hc =>
      refine ⟨by simp only [add, isNaN_ofUnits], ?_⟩
      simp only [add, ord_ofUnits]
      cases s <;> cases s' <;> simp [ord]

theorem Sim.add_right {a b : F32} (h : Sim a b) (c : F32) : Sim (c.add a) (c.add b) := by
  rcases h.cases with rfl | ⟨s, s', hk, rfl, rfl⟩
  · exact Sim.refl _
  · cases c with
    | nan => exact ⟨rfl, rfl⟩
    | inf sc => exact ⟨rfl, rfl⟩
    | fin sc kc hc =>
      refine ⟨by simp only [add, isNaN_ofUnits], ?_⟩
      simp only [add, ord_ofUnits]
      cases s <;> cases s' <;> simp [ord]

theorem Sim.sub_right {a b : F32} (h : Sim a b) (c : F32) : Sim (c.sub a) (c.sub b) := h.neg.add_right c

theorem Sim.mul_left {a b : F32} (h : Sim a b) (c : F32) : Sim (a.mul c) (b.mul c) := by
  rcases h.cases with rfl | ⟨s, s', hk, rfl, rfl⟩
  · exact Sim.refl _
  · cases c with
    | nan => exact ⟨rfl, rfl⟩
    | inf sc => simp [mul, Sim]
    | fin sc kc hc =>
      refine ⟨by simp only [mul, isNaN_round], ?_⟩
      rw [ord_mul_fin, ord_mul_fin]
      simp [mag_zero]

theorem Sim.trans {a b c : F32} (h : Sim a b) (h' : Sim b c) : Sim a c := ⟨h.1.trans h'.1, h.2.trans h'.2⟩

theorem Sim.lt {a b a' b' : F32} (h : Sim a b) (h' : Sim a' b') : a.lt a' = b.lt b' := by
  unfold F32.lt; rw [h.1, h.2, h'.1, h'.2]

theorem Sim.vmin {a b a' b' : F32} (h : Sim a b) (h' : Sim a' b') : Sim (F32.vmin a a') (F32.vmin b b') := by
  unfold F32.vmin; rw [h.lt h']; split <;> assumption
theorem Sim.vmax {a b a' b' : F32} (h : Sim a b) (h' : Sim a' b') : Sim (F32.vmax a a') (F32.vmax b b') := by
  unfold F32.vmax; rw [h'.lt h]; split <;> assumption

theorem Sim.of_le {a b : F32} (h : a.le b = true) (h' : b.le a = true) : Sim a b := by
  rw [le_iff] at h h'
  exact ⟨by rw [h.1, h.2.1], by omega⟩

end F32
end Rtbvh
