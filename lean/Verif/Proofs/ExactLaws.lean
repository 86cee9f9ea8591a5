import Verif.Model.Exact
import Verif.Spec.Lawful
import Mathlib.Algebra.Order.Ring.Rat
import Mathlib.Data.Rat.Cast.Order
import Mathlib.Tactic.Linarith
import Mathlib.Tactic.Positivity
import Mathlib.Tactic.NormNum
/- Exact rational arithmetic satisfies the laws of `LawfulFloat`. -/
namespace Rtbvh

theorem rat_zero : (FloatOps.zero : Rat) = 0 := by
  show ((0 : Int) : Rat) * ratPow10 0 = 0
  simp

theorem ratPow10_pos (e : Int) : 0 < ratPow10 e := by
  unfold ratPow10; split <;> positivity

theorem rat_le {a b : Rat} : FloatOps.le a b = true ↔ a ≤ b := by
  show decide (a ≤ b) = true ↔ _
  simp
theorem rat_lt {a b : Rat} : FloatOps.lt a b = true ↔ a < b := by
  show decide (a < b) = true ↔ _
  simp
theorem rat_le_false {a b : Rat} : FloatOps.le a b = false ↔ b < a := by
  rw [← Bool.not_eq_true, rat_le, not_le]
theorem rat_one : (FloatOps.one : Rat) = 1 := by
  show ((1 : Int) : Rat) * ratPow10 0 = 1
  simp [ratPow10]
theorem rat_fin {a : Rat} : Fin' a ↔ |a| ≤ (((2 ^ 24 - 1) * 2 ^ 104 : Nat) : Rat) := by
  unfold Fin'
  rw [rat_le]
  show (if a < 0 then -a else a) ≤ _ ↔ _
  split
  · rename_i h; rw [abs_of_neg h]; rfl
  · rename_i h; rw [abs_of_nonneg (not_lt.1 h)]; rfl

instance instLawfulRat : LawfulFloat Rat where
  le_num _ := ⟨rfl, rfl⟩
  le_refl _ := rat_le.2 le_rfl
  le_trans h h' := rat_le.2 ((rat_le.1 h).trans (rat_le.1 h'))
  le_total {a b} _ _ := by rw [rat_le, rat_le]; exact _root_.le_total a b
  lt_iff {a b} := by
    rw [rat_lt, rat_le_false]
    exact ⟨fun h => ⟨rfl, rfl, h⟩, fun h => h.2.2⟩
  min_num {a b} _ _ := by
    rw [rat_le, rat_le]
    show ((if b < a then b else a) = a ∧ _) ∨ ((if b < a then b else a) = b ∧ _)
    by_cases h : b < a
    · rw [if_pos h]; exact .inr ⟨rfl, h.le⟩
    · rw [if_neg h]; exact .inl ⟨rfl, not_lt.1 h⟩
  min_nan_left h := Bool.noConfusion h
  min_nan_right h := Bool.noConfusion h
  max_num {a b} _ _ := by
    rw [rat_le, rat_le]
    show ((if a < b then b else a) = a ∧ _) ∨ ((if a < b then b else a) = b ∧ _)
    by_cases h : a < b
    · rw [if_pos h]; exact .inr ⟨rfl, h.le⟩
    · rw [if_neg h]; exact .inl ⟨rfl, not_lt.1 h⟩
  max_nan_left h := Bool.noConfusion h
  max_nan_right h := Bool.noConfusion h
  vmin_eq a b := by
    show (if a < b then a else b) = _
    by_cases h : a < b
    · rw [if_pos h, if_pos (rat_lt.2 h)]
    · rw [if_neg h, if_neg (by rw [rat_lt]; exact h)]
  vmax_eq a b := by
    show (if b < a then a else b) = _
    by_cases h : b < a
    · rw [if_pos h, if_pos (rat_lt.2 h)]
    · rw [if_neg h, if_neg (by rw [rat_lt]; exact h)]
  add_mono {a b} c h _ _ := by rw [rat_le] at *; show a + c ≤ b + c; linarith
  sub_mono {a b} c h _ _ := by rw [rat_le] at *; show a - c ≤ b - c; linarith
  sub_le {a d} h _ := by rw [rat_le, rat_zero] at *; show a - d ≤ a; linarith
  le_add {a d} h _ := by rw [rat_le, rat_zero] at *; show a ≤ a + d; linarith
  add_mono2 {a a' b b'} h h' _ _ := by rw [rat_le] at *; show a + b ≤ a' + b'; linarith
  add_le {a d} h _ := by rw [rat_le, rat_zero] at *; show a + d ≤ a; linarith
  add_fin _ _ := rfl
  sub_fin _ _ := rfl
  mul_mono {a b c} h h' _ _ := by
    rw [rat_le] at *; rw [rat_zero] at h; exact mul_le_mul_of_nonneg_right h' h
  mul_anti {a b c} h h' _ _ := by
    rw [rat_le] at *; rw [rat_zero] at h; exact mul_le_mul_of_nonpos_right h' h
  mul_fin _ _ _ := rfl
  mul_num _ := ⟨rfl, rfl⟩
  add_num _ := ⟨rfl, rfl⟩
  sub_num _ := ⟨rfl, rfl⟩
  recip_pos {d} h := by
    rw [rat_lt, rat_zero] at h
    rw [rat_le, rat_zero]
    show (0 : Rat) ≤ FloatOps.one / d
    rw [rat_one]; positivity
  recip_neg {d} h := by
    rw [rat_lt, rat_zero] at h
    rw [rat_le, rat_zero]
    show FloatOps.one / d ≤ (0 : Rat)
    rw [rat_one, one_div]
    exact inv_nonpos.2 h.le
  lit_num _ _ := rfl
  lit_nonneg {m} e hm := by
    rw [rat_le, rat_zero]
    show 0 ≤ (m : Rat) * ratPow10 e
    have := ratPow10_pos e
    have : (0 : Rat) ≤ (m : Rat) := by exact_mod_cast hm
    positivity
  lit_fin {m e} h1 _ h3 := by
    rw [rat_fin]
    show |(m : Rat) * ratPow10 e| ≤ _
    have hp : ratPow10 e ≤ 10 ^ 34 := by
      unfold ratPow10
      split
      · have : (10 : Rat) ^ e.toNat ≤ 10 ^ 34 := pow_le_pow_right₀ (by norm_num) (by omega)
        exact_mod_cast this
      · have : (1 : Rat) ≤ ((10 ^ (-e).toNat : Nat) : Rat) := by
          exact_mod_cast Nat.one_le_pow _ _ (by norm_num)
        have h2 : 1 / ((10 ^ (-e).toNat : Nat) : Rat) ≤ 1 := by
          rw [div_le_one (by linarith)]; exact this
        exact h2.trans (by norm_num)
    have hm : |(m : Rat)| ≤ 10 := by
      rw [← Int.cast_abs]
      have : |m| ≤ 10 := by rw [Int.abs_eq_natAbs]; omega
      exact_mod_cast this
    rw [abs_mul, abs_of_pos (ratPow10_pos e)]
    calc |(m : Rat)| * ratPow10 e ≤ 10 * 10 ^ 34 :=
          mul_le_mul hm hp (ratPow10_pos e).le (by norm_num)
      _ ≤ _ := by norm_num
  add_comm a b := _root_.add_comm a b
  mul_comm a b := _root_.mul_comm a b
  sub_anti {a b} c h _ _ := by rw [rat_le] at *; show c - b ≤ c - a; linarith
  sub_nonneg {a b} _ h := by rw [rat_le] at *; rw [rat_zero]; show 0 ≤ b - a; linarith
  add_nonneg {a b} h h' := by rw [rat_le, rat_zero] at *; show 0 ≤ a + b; linarith
  fin_between {a b c} ha hc h h' := by
    rw [rat_le] at *
    rw [rat_fin, abs_le] at *
    exact ⟨by linarith [ha.1], by linarith [hc.2]⟩
  fin_num _ := rfl
  mul_fin_fin _ _ := rfl
  ofNat_num _ := rfl
  ofNat_nonneg n := by
    rw [rat_le, rat_zero]
    show (0 : Rat) ≤ (n : Rat)
    positivity
  mul_nonneg {a b} ha hb _ := by
    rw [rat_le, rat_zero] at *
    exact mul_nonneg ha hb
  toI32_mono {a b} h := by
    rw [rat_le] at h
    show (if a ≥ 0 then Min.min a.floor 2147483647 else Max.max a.ceil (-2147483648)) ≤
      (if b ≥ 0 then Min.min b.floor 2147483647 else Max.max b.ceil (-2147483648))
    have f : a.floor ≤ b.floor := Rat.floor_monotone h
    have c : a.ceil ≤ b.ceil := by
      rw [Rat.ceil_le_iff]; exact le_trans h Rat.le_ceil
    have f0 : 0 ≤ b → 0 ≤ b.floor := fun h => Rat.le_floor_iff.2 (by simpa using h)
    have c0 : ¬ a ≥ 0 → a.ceil ≤ 0 := fun h => Rat.ceil_le_iff.2 (by simpa using (not_le.1 h).le)
    by_cases ha : a ≥ 0
    · rw [if_pos ha, if_pos (le_trans ha h)]; omega
    · rw [if_neg ha]
      have := c0 ha
      by_cases hb : b ≥ 0
      · rw [if_pos hb]; have := f0 hb; omega
      · rw [if_neg hb]; omega

end Rtbvh
