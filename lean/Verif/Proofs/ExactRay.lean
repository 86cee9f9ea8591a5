import Verif.Proofs.ExactLaws
import Verif.Proofs.Slab
import Verif.Spec.Bounded
import Mathlib.Tactic.FieldSimp
import Mathlib.Tactic.Ring
/- The slab test in exact arithmetic. -/
namespace Rtbvh
open Aabb

theorem rat_ge_iff {a b : Rat} : (FloatOps.gt a b) = true ↔ b < a := rat_lt
theorem rat_lt_false {a b : Rat} : (FloatOps.lt a b) = false ↔ b ≤ a := by
  rw [← Bool.not_eq_true, rat_lt, not_lt]

theorem slabs6_rat {nx fx ny fy nz fz r : Rat} : slabs6 nx fx ny fy nz fz = some r ↔
    nx ≤ fy ∧ ny ≤ fx ∧ nx ≤ fz ∧ ny ≤ fz ∧ nz ≤ fx ∧ nz ≤ fy ∧ r ≤ fx ∧ r ≤ fy ∧ r ≤ fz ∧
      (r = fx ∨ r = fy ∨ r = fz) := by
  unfold slabs6
  simp only [Bool.or_eq_true, rat_lt]
  by_cases h1 : fy < nx ∨ fx < ny
  · rw [if_pos h1]
    constructor
    · intro h; cases h
    · rintro ⟨a, b, _⟩; rcases h1 with h | h <;> linarith
  · rw [if_neg h1]
    rw [not_or, not_lt, not_lt] at h1
    by_cases h2 : nx < ny <;> by_cases h3 : fy < fx <;> simp only [h2, h3, if_true, if_false]
    all_goals
      split
      · rename_i h4
        constructor
        · intro h; cases h
        · rintro ⟨a, b, c, d, e, f, _⟩; rcases h4 with h | h <;> linarith
      · rename_i h4
        rw [not_or, not_lt, not_lt] at h4
        split
        · rename_i h5
          constructor
          · intro h
            injection h with h
            subst h
            refine ⟨h1.1, h1.2, ?_, ?_, ?_, ?_, ?_, ?_, ?_, .inr (.inr rfl)⟩ <;> linarith
          · rintro ⟨a, b, c, d, e, f, g, i, j, rfl | rfl | rfl⟩
            · exfalso; linarith
            · exfalso; linarith
            · rfl
        · rename_i h5
          rw [not_lt] at h5
          constructor
          · intro h
            injection h with h
            subst h
            refine ⟨h1.1, h1.2, ?_, ?_, ?_, ?_, ?_, ?_, ?_, ?_⟩ <;> first | linarith | simp
          · rintro ⟨a, b, c, d, e, f, g, i, j, hr⟩
            congr 1
            rcases hr with rfl | rfl | rfl <;> linarith

/-- One axis: the ray is between the two planes exactly between the near and the far product. -/
theorem axis_rat {lo hi o d s : Rat} (hd : d ≠ 0) :
    (lo ≤ o + s * d ∧ o + s * d ≤ hi) ↔
      nearP lo hi o (1 / d) (decide (d < 0)) ≤ s ∧ s ≤ nearP lo hi o (1 / d) (!decide (d < 0)) := by
  unfold nearP
  show _ ↔ ((if decide (d < 0) = true then hi else lo) - o) * (1 / d) ≤ s ∧
    s ≤ ((if (!decide (d < 0)) = true then hi else lo) - o) * (1 / d)
  rcases lt_or_gt_of_ne hd with h | h
  · simp only [h, decide_true, if_true, Bool.not_true, Bool.false_eq_true, if_false]
    rw [mul_one_div, mul_one_div, div_le_iff_of_neg h, le_div_iff_of_neg h]
    constructor <;> rintro ⟨h1, h2⟩ <;> constructor <;> linarith
  · have hn : ¬ d < 0 := not_lt.2 h.le
    simp only [hn, decide_false, if_true, Bool.not_false, Bool.false_eq_true, if_false]
    rw [mul_one_div, mul_one_div, div_le_iff₀ h, le_div_iff₀ h]
    constructor <;> rintro ⟨h1, h2⟩ <;> constructor <;> linarith

theorem nearP_le {lo hi o d : Rat} (hd : d ≠ 0) (h : lo ≤ hi) :
    nearP lo hi o (1 / d) (decide (d < 0)) ≤ nearP lo hi o (1 / d) (!decide (d < 0)) := by
  have h1 : lo ≤ o + ((lo - o) / d) * d ∧ o + ((lo - o) / d) * d ≤ hi := by
    rw [div_mul_cancel₀ _ hd]; constructor <;> linarith
  have := (axis_rat hd).1 h1
  linarith [this.1, this.2]

end Rtbvh
