import Verif.Props.Rounding
import Verif.Spec.Watertight
import Mathlib.Tactic.Linarith
/-
How far the operations of binary32 are from the exact ones: relative error at most `2^-24`, plus `2^-150` where the
result can be subnormal.
-/
set_option exponentiation.threshold 400

namespace Rtbvh

theorem rnd_unit {num den : Nat} (hd : 0 < den) :
    |(rnd num den : ℚ) - num / den| ≤ 2 ^ ((num / den).log2 - 23) / 2 := by
  have hmd := Nat.div_add_mod num (den * 2 ^ ((num / den).log2 - 23))
  have hdp : 0 < den * 2 ^ ((num / den).log2 - 23) := Nat.mul_pos hd (Nat.two_pow_pos _)
  have hlt := Nat.mod_lt num hdp
  have hx : rnd num den = (if den * 2 ^ ((num / den).log2 - 23) < 2 * (num % (den * 2 ^ ((num / den).log2 - 23))) ∨
      (2 * (num % (den * 2 ^ ((num / den).log2 - 23))) = den * 2 ^ ((num / den).log2 - 23) ∧
        num / (den * 2 ^ ((num / den).log2 - 23)) % 2 = 1)
      then num / (den * 2 ^ ((num / den).log2 - 23)) + 1 else num / (den * 2 ^ ((num / den).log2 - 23))) *
        2 ^ ((num / den).log2 - 23) := rfl
  rw [hx]
  clear hx
  revert hmd hdp hlt
  generalize (num / den).log2 - 23 = e
  intro hmd hdp hlt
  generalize num / (den * 2 ^ e) = m at hmd ⊢
  generalize num % (den * 2 ^ e) = r at hmd hlt ⊢
  have hdq : (0 : ℚ) < den := by exact_mod_cast hd
  have hpq : (0 : ℚ) < 2 ^ e := by positivity
  have hnum : (num : ℚ) = den * 2 ^ e * m + r := by exact_mod_cast hmd.symm
  have hr : (r : ℚ) < den * 2 ^ e := by exact_mod_cast hlt
  have hr0 : (0 : ℚ) ≤ r := by positivity
  have hq : (num : ℚ) / den = 2 ^ e * m + r / den := by rw [hnum]; field_simp
  rw [hq]
  split
  · rename_i hc
    have hge : (den : ℚ) * 2 ^ e ≤ 2 * r := by
      have : den * 2 ^ e ≤ 2 * r := by omega
      exact_mod_cast this
    have h1 : (2 : ℚ) ^ e ≤ 2 * (r / den) := by
      rw [mul_div_assoc', le_div_iff₀ hdq]; linarith
    have h2 : (r : ℚ) / den ≤ 2 ^ e := by rw [div_le_iff₀ hdq]; linarith
    push_cast
    rw [abs_le]; constructor <;> linarith
  · rename_i hc
    have hle : 2 * (r : ℚ) ≤ den * 2 ^ e := by
      have : 2 * r ≤ den * 2 ^ e := by omega
      exact_mod_cast this
    have h1 : 2 * ((r : ℚ) / den) ≤ 2 ^ e := by
      rw [mul_div_assoc', div_le_iff₀ hdq]; linarith
    have h2 : (0 : ℚ) ≤ r / den := by positivity
    push_cast
    rw [abs_le]; constructor <;> linarith

theorem rnd_rel {num den : Nat} (hd : 0 < den) :
    |(rnd num den : ℚ) - num / den| ≤ (num : ℚ) / den / 2 ^ 24 + 1 / 2 ∧
    (den = 1 → |(rnd num den : ℚ) - num / den| ≤ (num : ℚ) / den / 2 ^ 24) := by
  have h := rnd_unit (num := num) hd
  have hq0 : (0 : ℚ) ≤ num / den := by positivity
  by_cases he : 0 < (num / den).log2 - 23
  · have hb := (mant_bounds num den).2 he
    have hpos : 0 < den * 2 ^ ((num / den).log2 - 23) := Nat.mul_pos hd (Nat.two_pow_pos _)
    rw [Nat.le_div_iff_mul_le hpos] at hb
    have hbq : (2 : ℚ) ^ 23 * (den * 2 ^ ((num / den).log2 - 23)) ≤ num := by exact_mod_cast hb
    have hdq : (0 : ℚ) < den := by exact_mod_cast hd
    have h2 : (2 : ℚ) ^ ((num / den).log2 - 23) / 2 ≤ (num : ℚ) / den / 2 ^ 24 := by
      rw [div_div, le_div_iff₀ (by positivity)]
      calc (2 : ℚ) ^ ((num / den).log2 - 23) / 2 * ((den : ℚ) * 2 ^ 24)
          = 2 ^ 23 * (den * 2 ^ ((num / den).log2 - 23)) := by ring
        _ ≤ (num : ℚ) := hbq
    exact ⟨by linarith, fun _ => by linarith⟩
  · have h0 : (num / den).log2 - 23 = 0 := by omega
    rw [h0, pow_zero] at h
    have hq24 : (0 : ℚ) ≤ num / den / 2 ^ 24 := by positivity
    refine ⟨by linarith, fun h1 => ?_⟩
    subst h1
    have : rnd num 1 = num := by
      rw [Nat.div_one] at h0
      unfold rnd
      simp only [Nat.div_one, h0, Nat.pow_zero, Nat.mul_one, Nat.mod_one]
      simp
    rw [this]; simp
    positivity

namespace F32

theorem round_err {s : Bool} {num den : Nat} (hd : 0 < den) (hb : (num : ℚ) / den ≤ 2 ^ 276) :
    (round s num den).IsFin ∧
    |(round s num den).val - sgn s * (num / den / 2 ^ 149)| ≤ (num : ℚ) / den / 2 ^ 149 / 2 ^ 24 + 1 / 2 ^ 150 ∧
    (den = 1 → |(round s num den).val - sgn s * (num / den / 2 ^ 149)| ≤ (num : ℚ) / den / 2 ^ 149 / 2 ^ 24) := by
  obtain ⟨h1, h2⟩ := rnd_rel (num := num) hd
  have hq0 : (0 : ℚ) ≤ num / den := by positivity
  have hlt : rnd num den < f32Top := by
    have h3 : (rnd num den : ℚ) < 2 ^ 277 := by
      have := (abs_le.1 h1).2
      have h4 : (num : ℚ) / den / 2 ^ 24 ≤ 2 ^ 276 / 2 ^ 24 := by
        apply div_le_div_of_nonneg_right hb (by positivity)
      have h5 : (2 : ℚ) ^ 276 / 2 ^ 24 + 1 / 2 + 2 ^ 276 < 2 ^ 277 := by norm_num
      linarith
    have : rnd num den < 2 ^ 277 := by exact_mod_cast h3
    exact this
  have e : round s num den = fin s (rnd num den) (rnd_rep hlt) := by simp only [round, dif_pos hlt]
  rw [e, val_fin]
  have e2 : sgn s * ((rnd num den : ℚ) / 2 ^ 149) - sgn s * (num / den / 2 ^ 149) =
      sgn s * (((rnd num den : ℚ) - num / den) / 2 ^ 149) := by ring
  have e3 : |sgn s * (((rnd num den : ℚ) - num / den) / 2 ^ 149)| = |(rnd num den : ℚ) - num / den| / 2 ^ 149 := by
    rw [abs_mul, sgn_abs, one_mul, abs_div, abs_of_pos (show (0 : ℚ) < 2 ^ 149 by positivity)]
  refine ⟨⟨_, _, _, rfl⟩, ?_, fun hd1 => ?_⟩
  · rw [e2, e3, div_le_iff₀ (by positivity)]
    have : ((num : ℚ) / den / 2 ^ 149 / 2 ^ 24 + 1 / 2 ^ 150) * 2 ^ 149 = num / den / 2 ^ 24 + 1 / 2 := by
      field_simp
    rw [this]; exact h1
  · rw [e2, e3, div_le_iff₀ (by positivity)]
    have : (num : ℚ) / den / 2 ^ 149 / 2 ^ 24 * 2 ^ 149 = num / den / 2 ^ 24 := by
      field_simp
    rw [this]; exact h2 hd1

theorem ofUnits_err {z : Int} {b : Bool} (h : |(z : ℚ) / 2 ^ 149| ≤ 2 ^ 127) :
    (ofUnits z b).IsFin ∧ |(ofUnits z b).val - z / 2 ^ 149| ≤ |(z : ℚ) / 2 ^ 149| / 2 ^ 24 := by
  have hn : ((z.natAbs : Nat) : ℚ) = |(z : ℚ)| := by rw [Nat.cast_natAbs, Int.cast_abs]
  have hab : |(z : ℚ) / 2 ^ 149| = |(z : ℚ)| / 2 ^ 149 := by
    rw [abs_div, abs_of_pos (show (0 : ℚ) < 2 ^ 149 by positivity)]
  rw [hab, div_le_iff₀ (by positivity)] at h
  obtain ⟨h1, _, h3⟩ := round_err (s := if z = 0 then b else decide (z < 0)) (num := z.natAbs) (den := 1) (by omega)
    (by rw [hn, Nat.cast_one, div_one]; calc |(z : ℚ)| ≤ 2 ^ 127 * 2 ^ 149 := h
          _ = 2 ^ 276 := by norm_num)
  refine ⟨h1, ?_⟩
  have h3 := h3 rfl
  rw [hn, Nat.cast_one, div_one] at h3
  rw [hab]
  have hs : sgn (if z = 0 then b else decide (z < 0)) * (|(z : ℚ)| / 2 ^ 149) = z / 2 ^ 149 := by
    by_cases h0 : z = 0
    · subst h0; simp
    rw [if_neg h0]
    by_cases hn : z < 0
    · have hq : (z : ℚ) < 0 := by exact_mod_cast hn
      simp only [hn, decide_true, sgn, if_true, abs_of_neg hq]; ring
    · have hq : (0 : ℚ) ≤ z := by exact_mod_cast (by omega : 0 ≤ z)
      simp only [hn, decide_false, sgn, abs_of_nonneg hq]; simp
  rw [hs] at h3
  exact h3

theorem add_err {a b : F32} (ha : a.IsFin) (hb : b.IsFin) (h : |a.val + b.val| ≤ 2 ^ 127) :
    (a.add b).IsFin ∧ |(a.add b).val - (a.val + b.val)| ≤ |a.val + b.val| / 2 ^ 24 := by
  have e : a.val + b.val = ((a.ord + b.ord : Int) : ℚ) / 2 ^ 149 := by
    rw [val_ord ha, val_ord hb, ← add_div, ← Int.cast_add]
  obtain ⟨s, k, h1, rfl⟩ := ha
  obtain ⟨s', k', h1', rfl⟩ := hb
  rw [e] at h ⊢
  exact ofUnits_err h

theorem neg_fin {a : F32} (ha : a.IsFin) : a.neg.IsFin ∧ a.neg.val = -a.val := by
  obtain ⟨s, k, h, rfl⟩ := ha
  exact ⟨⟨_, _, _, rfl⟩, by cases s <;> simp [neg, val] <;> ring⟩

theorem sub_err {a b : F32} (ha : a.IsFin) (hb : b.IsFin) (h : |a.val - b.val| ≤ 2 ^ 127) :
    (a.sub b).IsFin ∧ |(a.sub b).val - (a.val - b.val)| ≤ |a.val - b.val| / 2 ^ 24 := by
  obtain ⟨n1, n2⟩ := neg_fin hb
  have := add_err ha n1 (by rw [n2, ← sub_eq_add_neg]; exact h)
  rw [n2, ← sub_eq_add_neg] at this
  exact this

theorem mul_err {a b : F32} (ha : a.IsFin) (hb : b.IsFin) (h : |a.val * b.val| ≤ 2 ^ 127) :
    (a.mul b).IsFin ∧ |(a.mul b).val - a.val * b.val| ≤ |a.val * b.val| / 2 ^ 24 + 1 / 2 ^ 150 := by
  obtain ⟨s, k, h1, rfl⟩ := ha
  obtain ⟨s', k', h1', rfl⟩ := hb
  have e : (fin s k h1).val * (fin s' k' h1').val = sgn (s != s') * (((k * k' : Nat) : ℚ) / ((2 ^ 149 : Nat) : ℚ) / 2 ^ 149) := by
    rw [val_fin, val_fin, sgn_mul]; push_cast; field_simp; norm_num; ring
  have hq0 : (0 : ℚ) ≤ ((k * k' : Nat) : ℚ) / ((2 ^ 149 : Nat) : ℚ) := by positivity
  have ea : |(fin s k h1).val * (fin s' k' h1').val| = ((k * k' : Nat) : ℚ) / ((2 ^ 149 : Nat) : ℚ) / 2 ^ 149 := by
    rw [e, abs_mul, sgn_abs, one_mul, abs_of_nonneg (by positivity)]
  rw [ea] at h ⊢
  rw [e]
  rw [div_le_iff₀ (by positivity)] at h
  obtain ⟨r1, r2, _⟩ := round_err (s := s != s') (num := k * k') (den := 2 ^ 149) (Nat.two_pow_pos _)
    (le_trans h (by norm_num))
  exact ⟨r1, r2⟩

theorem div_err {a b : F32} (ha : a.IsFin) (hb : b.IsFin) (h0 : b.val ≠ 0) (h : |a.val / b.val| ≤ 2 ^ 127) :
    (a.div b).IsFin ∧ |(a.div b).val - a.val / b.val| ≤ |a.val / b.val| / 2 ^ 24 + 1 / 2 ^ 150 := by
  obtain ⟨s, k, h1, rfl⟩ := ha
  obtain ⟨s', k', h1', rfl⟩ := hb
  have hk0 : k' ≠ 0 := by rintro rfl; exact h0 (by simp [val])
  have hkp : 0 < k' := Nat.pos_of_ne_zero hk0
  have hkq : (0 : ℚ) < k' := by exact_mod_cast hkp
  have hs : sgn s' ≠ 0 := by cases s' <;> simp [sgn]
  have e : (fin s k h1).val / (fin s' k' h1').val = sgn (s != s') * (((k * 2 ^ 149 : Nat) : ℚ) / k' / 2 ^ 149) := by
    rw [val_fin, val_fin, sgn_div]; push_cast; field_simp; norm_num
  have ea : |(fin s k h1).val / (fin s' k' h1').val| = ((k * 2 ^ 149 : Nat) : ℚ) / k' / 2 ^ 149 := by
    rw [e, abs_mul, sgn_abs, one_mul, abs_of_nonneg (by positivity)]
  rw [ea] at h ⊢
  rw [e]
  rw [div_le_iff₀ (by positivity)] at h
  have ed : (fin s k h1).div (fin s' k' h1') = round (s != s') (k * 2 ^ 149) k' := by simp only [div, hk0, if_false]
  rw [ed]
  obtain ⟨r1, r2, _⟩ := round_err (s := s != s') (num := k * 2 ^ 149) (den := k') hkp (le_trans h (by norm_num))
  exact ⟨r1, r2⟩

end F32
end Rtbvh
