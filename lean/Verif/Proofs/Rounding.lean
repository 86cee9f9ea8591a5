import Verif.Spec.Rounding
import Verif.Proofs.F32Laws
import Mathlib.Tactic.Ring
import Mathlib.Tactic.Linarith
import Mathlib.Tactic.FieldSimp
import Mathlib.Tactic.Positivity
/-
`rnd` returns the closest 24-bit number, ties to even.
-/
namespace Rtbvh

/-- Between two neighbours with the unit `2^e` there is no representable number. -/
theorem rep_gap {m e k : Nat} (hk : k % 2 ^ (k.log2 - 23) = 0) (he : 0 < e → 2 ^ 23 ≤ m) :
    k ≤ m * 2 ^ e ∨ (m + 1) * 2 ^ e ≤ k := by
  by_cases h : k ≤ m * 2 ^ e
  · exact .inl h
  right
  have h' : m * 2 ^ e < k := by omega
  by_cases he0 : e = 0
  · subst he0; simp at h' ⊢; omega
  have hm := he (by omega)
  have hk0 : k ≠ 0 := by omega
  have h1 : 2 ^ (23 + e) ≤ k := by
    rw [Nat.pow_add]
    exact Nat.le_trans (Nat.mul_le_mul_right _ hm) (Nat.le_of_lt h')
  have h2 : 23 + e ≤ k.log2 := (Nat.le_log2 hk0).2 h1
  have h3 : 2 ^ e ∣ k :=
    Nat.dvd_trans (Nat.pow_dvd_pow 2 (by omega)) (Nat.dvd_of_mod_eq_zero hk)
  obtain ⟨c, rfl⟩ := h3
  rw [Nat.mul_comm] at h' ⊢
  rw [Nat.mul_comm (2 ^ e) c] at h' ⊢
  have : m < c := by
    rw [Nat.mul_comm] at h'
    exact Nat.lt_of_mul_lt_mul_right h'
  rw [Nat.mul_comm]
  exact Nat.mul_le_mul_right _ this

/-- `|num - den * r|` as a natural number. -/
def dist (num den r : Nat) : Nat := ((num : Int) - (den * r : Nat)).natAbs

theorem rnd_nearest {num den : Nat} (hd : 0 < den) {k : Nat} (hk : k % 2 ^ (k.log2 - 23) = 0) :
    dist num den (rnd num den) ≤ dist num den k := by
  obtain ⟨b1, b2⟩ := mant_bounds num den
  unfold rnd
  simp only
  generalize (num / den).log2 - 23 = e at *
  have hgap := rep_gap (m := num / (den * 2 ^ e)) hk b2
  have hdm := Nat.div_add_mod num (den * 2 ^ e)
  have hlt := Nat.mod_lt num (y := den * 2 ^ e) (Nat.mul_pos hd (Nat.two_pow_pos _))
  generalize num / (den * 2 ^ e) = m at *
  generalize num % (den * 2 ^ e) = r at *
  have e1 : den * (m * 2 ^ e) = den * 2 ^ e * m := by ring
  have e2 : den * ((m + 1) * 2 ^ e) = den * 2 ^ e * m + den * 2 ^ e := by ring
  have hg : den * k ≤ den * 2 ^ e * m ∨ den * 2 ^ e * m + den * 2 ^ e ≤ den * k := by
    rcases hgap with h | h
    · left; rw [← e1]; exact Nat.mul_le_mul_left _ h
    · right; rw [← e2]; exact Nat.mul_le_mul_left _ h
  unfold dist
  split
  · rename_i hc
    rw [e2]; generalize den * 2 ^ e * m = A at *; generalize den * 2 ^ e = d at *; omega
  · rename_i hc
    rw [e1]; generalize den * 2 ^ e * m = A at *; generalize den * 2 ^ e = d at *; omega

/-- The significand of `m * 2^e` is `m`, except after a carry into the next power of two, where it is even. -/
theorem sig_even {m e : Nat} (hm : m ≤ 2 ^ 24) (he : 0 < e → 2 ^ 23 ≤ m) (hev : m % 2 = 0) :
    (m * 2 ^ e / 2 ^ ((m * 2 ^ e).log2 - 23)) % 2 = 0 := by
  by_cases h24 : m = 2 ^ 24
  · subst h24
    rw [← Nat.pow_add, log2_eq (k := 24 + e) (Nat.le_refl _) (by rw [Nat.pow_lt_pow_iff_right (by omega)]; omega),
      Nat.pow_div (by omega) (by omega), show 24 + e - (24 + e - 23) = 23 by omega]
  have hlt : m < 2 ^ 24 := by omega
  by_cases he0 : e = 0
  · subst he0
    simp only [Nat.pow_zero, Nat.mul_one]
    have : m.log2 - 23 = 0 := by
      by_cases h0 : m = 0
      · subst h0; simp
      · have := (Nat.log2_lt h0).2 hlt; omega
    rw [this]; simpa using hev
  · have hge := he (by omega)
    have hl : (m * 2 ^ e).log2 = 23 + e := by
      apply log2_eq
      · rw [Nat.pow_add]; exact Nat.mul_le_mul_right _ hge
      · rw [show 23 + e + 1 = 24 + e by omega, Nat.pow_add]
        exact Nat.mul_lt_mul_of_pos_right hlt (Nat.two_pow_pos _)
    rw [hl, show 23 + e - 23 = e by omega, Nat.mul_div_cancel _ (Nat.two_pow_pos _)]
    exact hev

theorem rnd_tie {num den : Nat} (hd : 0 < den) {k : Nat} (hk : k % 2 ^ (k.log2 - 23) = 0) (hne : k ≠ rnd num den)
    (heq : dist num den (rnd num den) = dist num den k) :
    (rnd num den / 2 ^ ((rnd num den).log2 - 23)) % 2 = 0 := by
  obtain ⟨b1, b2⟩ := mant_bounds num den
  unfold rnd at hne heq ⊢
  simp only at hne heq ⊢
  generalize (num / den).log2 - 23 = e at *
  have hgap := rep_gap (m := num / (den * 2 ^ e)) hk b2
  have hdm := Nat.div_add_mod num (den * 2 ^ e)
  have hpos : 0 < den * 2 ^ e := Nat.mul_pos hd (Nat.two_pow_pos _)
  have hlt := Nat.mod_lt num (y := den * 2 ^ e) hpos
  generalize num / (den * 2 ^ e) = m at *
  generalize num % (den * 2 ^ e) = r at *
  have e1 : den * (m * 2 ^ e) = den * 2 ^ e * m := by ring
  have e2 : den * ((m + 1) * 2 ^ e) = den * 2 ^ e * m + den * 2 ^ e := by ring
  have inj : ∀ {x y : Nat}, den * x = den * y → x = y := fun h => Nat.eq_of_mul_eq_mul_left hd h
  have hg : den * k ≤ den * 2 ^ e * m ∨ den * 2 ^ e * m + den * 2 ^ e ≤ den * k := by
    rcases hgap with h | h
    · left; rw [← e1]; exact Nat.mul_le_mul_left _ h
    · right; rw [← e2]; exact Nat.mul_le_mul_left _ h
  unfold dist at heq
  split at heq
  · rename_i hc
    rw [if_pos hc] at hne ⊢
    have hkne : den * k ≠ den * 2 ^ e * m + den * 2 ^ e := by
      intro h; exact hne (inj (by rw [h, e2]))
    rw [e2] at heq
    have hodd : (m + 1) % 2 = 0 := by
      generalize den * 2 ^ e * m = A at *; generalize den * 2 ^ e = d at *; omega
    exact sig_even (by omega) (fun h => by have := b2 h; omega) hodd
  · rename_i hc
    rw [if_neg hc] at hne ⊢
    have hkne : den * k ≠ den * 2 ^ e * m := by
      intro h; exact hne (inj (by rw [h, e1]))
    rw [e1] at heq
    have hev : m % 2 = 0 := by
      generalize den * 2 ^ e * m = A at *; generalize den * 2 ^ e = d at *; omega
    exact sig_even (by omega) b2 hev

theorem rnd_scale_den {den : Nat} (hd : 0 < den) (t : Nat) : rnd (den * t) den = rnd t 1 := by
  unfold rnd
  simp only [Nat.mul_div_cancel_left t hd, Nat.div_one, Nat.one_mul]
  rw [Nat.mul_div_mul_left _ _ hd, Nat.mul_mod_mul_left]
  generalize t / 2 ^ (t.log2 - 23) = m
  generalize 2 ^ (t.log2 - 23) = p
  generalize t % p = r
  have h1 : (den * p < 2 * (den * r)) ↔ p < 2 * r := by
    rw [show 2 * (den * r) = den * (2 * r) by ring]
    exact ⟨fun h => Nat.lt_of_mul_lt_mul_left h, fun h => Nat.mul_lt_mul_of_pos_left h hd⟩
  have h2 : (2 * (den * r) = den * p) ↔ 2 * r = p := by
    rw [show 2 * (den * r) = den * (2 * r) by ring]
    exact ⟨fun h => Nat.eq_of_mul_eq_mul_left hd h, fun h => by rw [h]⟩
  simp only [h1, h2]

/-- Overflow starts half a unit above the largest finite number. -/
theorem rnd_overflow {num den : Nat} (hd : 0 < den) :
    rnd num den < f32Top ↔ num < den * (2 ^ 277 - 2 ^ 252) := by
  constructor
  · intro h
    by_contra hc
    have h1 := rnd_mono hd (Nat.le_of_not_lt hc)
    rw [rnd_scale_den hd] at h1
    have h2 : rnd (2 ^ 277 - 2 ^ 252) 1 = f32Top := by decide +kernel
    omega
  · intro h
    by_cases hsmall : num / den < 2 ^ 276
    · exact rnd_lt_top hsmall
    have hq : (num / den) < 2 ^ 277 := by
      rw [Nat.div_lt_iff_lt_mul hd, Nat.mul_comm]
      refine Nat.lt_of_lt_of_le h (Nat.mul_le_mul_left _ (by omega))
    have hl : (num / den).log2 = 276 := log2_eq (by omega) hq
    obtain ⟨b1, b2⟩ := mant_bounds num den
    unfold rnd f32Top
    simp only [hl] at b1 b2 ⊢
    simp only [show 276 - 23 = 253 from rfl] at b1 b2 ⊢
    have hdm := Nat.div_add_mod num (den * 2 ^ 253)
    generalize num / (den * 2 ^ 253) = m at *
    generalize num % (den * 2 ^ 253) = r at *
    split
    · rename_i hc
      have hm : m + 1 < 2 ^ 24 := by
        by_contra hm
        have hm : m = 2 ^ 24 - 1 := by omega
        subst hm
        omega
      omega
    · omega

namespace F32

theorem dist_cast (num : Nat) {den : Nat} (hd : 0 < den) (k : Nat) :
    |(num : ℚ) / den - k| = (dist num den k : ℚ) / den := by
  have hd' : (0 : ℚ) < den := by exact_mod_cast hd
  unfold dist
  rw [Nat.cast_natAbs, Int.cast_abs]
  push_cast
  rw [← abs_of_pos hd', ← abs_div, abs_of_pos hd']
  congr 1
  field_simp

/-- The sign as a factor. -/
def sgn (s : Bool) : ℚ := if s then -1 else 1

theorem sgn_abs (s : Bool) : |sgn s| = 1 := by cases s <;> simp [sgn]
theorem val_fin (s : Bool) (k : Nat) (h : rep k = true) : (fin s k h).val = sgn s * (k / 2 ^ 149) := by
  cases s <;> simp [val, sgn] <;> ring

theorem same_sign {s : Bool} (a b : ℚ) : |sgn s * a - sgn s * b| = |a - b| := by
  rw [← mul_sub, abs_mul, sgn_abs, one_mul]

theorem other_sign {s s' : Bool} (h : s' ≠ s) {a b : ℚ} (ha : 0 ≤ a) (hb : 0 ≤ b) :
    |sgn s * a - sgn s' * b| = a + b := by
  have : sgn s' = - sgn s := by cases s <;> cases s' <;> simp_all [sgn]
  rw [this, show sgn s * a - -sgn s * b = sgn s * (a + b) by ring, abs_mul, sgn_abs, one_mul,
    abs_of_nonneg (by linarith)]

/-- Rounding as the model does it is rounding as IEEE-754 says. -/
theorem round_rounds (s : Bool) (num : Nat) {den : Nat} (hd : 0 < den) :
    Rounds (sgn s * (num / den / 2 ^ 149)) (round s num den) := by
  have hd' : (0 : ℚ) < den := by exact_mod_cast hd
  have hnn : (0 : ℚ) ≤ num / den / 2 ^ 149 := by positivity
  have habs : |sgn s * ((num : ℚ) / den / 2 ^ 149)| = (num : ℚ) / den / 2 ^ 149 := by
    rw [abs_mul, sgn_abs, one_mul, abs_of_nonneg hnn]
  have hT : (2 ^ 277 - 2 ^ 252 : Nat) = 2 ^ 252 * 33554431 := by decide +kernel
  have hthr : (num : ℚ) / den / 2 ^ 149 < 2 ^ 128 - 2 ^ 103 ↔ rnd num den < f32Top := by
    rw [rnd_overflow hd, div_lt_iff₀ (by positivity), div_lt_iff₀ hd', ← Nat.cast_lt (α := ℚ), hT]
    have hc : ((2 ^ 252 * 33554431 : Nat) : ℚ) = (2 ^ 128 - 2 ^ 103) * 2 ^ 149 := by push_cast; norm_num
    rw [Nat.cast_mul, hc, mul_comm]
  have hsign : sgn s * ((num : ℚ) / den / 2 ^ 149) ≠ 0 → s = decide (sgn s * ((num : ℚ) / den / 2 ^ 149) < 0) := by
    intro h0
    have hpos : (0 : ℚ) < num / den / 2 ^ 149 := by
      rcases lt_or_eq_of_le hnn with h | h
      · exact h
      · rw [← h] at h0; simp at h0
    cases s
    · symm; simp [sgn]; exact hpos.le
    · symm
      simp only [sgn, if_true, decide_eq_true_eq]
      linarith
  have repmod : ∀ {k}, rep k = true → k % 2 ^ (k.log2 - 23) = 0 := by
    intro k h
    simp only [rep, Bool.and_eq_true, beq_iff_eq] at h
    exact h.1
  have hdist : ∀ k : Nat, |sgn s * ((num : ℚ) / den / 2 ^ 149) - sgn s * ((k : ℚ) / 2 ^ 149)|
      = (dist num den k : ℚ) / den / 2 ^ 149 := by
    intro k
    rw [same_sign, ← sub_div, abs_div, dist_cast num hd, abs_of_pos (by positivity : (0 : ℚ) < 2 ^ 149)]
  have hle : ∀ a b : Nat, (a : ℚ) / den / 2 ^ 149 ≤ (b : ℚ) / den / 2 ^ 149 ↔ a ≤ b := by
    intro a b
    rw [div_le_div_iff_of_pos_right (by positivity), div_le_div_iff_of_pos_right hd', Nat.cast_le]
  have h0rep : rep 0 = true := by decide
  have d0 : (dist num den 0 : ℚ) / den / 2 ^ 149 = num / den / 2 ^ 149 := by
    rw [← hdist 0]; simp only [Nat.cast_zero, zero_div, mul_zero, sub_zero]; exact habs
  refine ⟨?_, ?_, ?_, ?_⟩
  · intro h
    rw [habs] at h
    have hn : ¬ rnd num den < f32Top := by rw [← hthr]; exact not_lt.2 h
    have h0 : sgn s * ((num : ℚ) / den / 2 ^ 149) ≠ 0 := by
      intro h0; rw [h0, abs_zero] at habs; rw [← habs] at h; norm_num at h
    unfold round
    rw [dif_neg hn, ← hsign h0]
  · intro h
    rw [habs, hthr] at h
    refine ⟨s, rnd num den, rnd_rep h, ?_, hsign⟩
    unfold round; rw [dif_pos h]
  · intro h s' k hk
    rw [habs, hthr] at h
    have hr : round s num den = fin s (rnd num den) (rnd_rep h) := by unfold round; rw [dif_pos h]
    rw [hr, val_fin, val_fin, hdist]
    by_cases hs : s' = s
    · subst hs
      rw [hdist, hle]
      exact rnd_nearest hd (repmod hk)
    · rw [other_sign hs hnn (by positivity)]
      have h1 := (hle _ _).2 (rnd_nearest (num := num) hd (repmod h0rep))
      rw [d0] at h1
      have : (0 : ℚ) ≤ k / 2 ^ 149 := by positivity
      linarith
  · intro h s' k hk hne heq
    rw [habs, hthr] at h
    have hr : round s num den = fin s (rnd num den) (rnd_rep h) := by unfold round; rw [dif_pos h]
    rw [hr] at hne heq ⊢
    rw [val_fin, val_fin] at hne heq
    rw [hdist] at heq
    by_cases hs : s' = s
    · subst hs
      rw [hdist] at heq
      refine rnd_tie hd (repmod hk) (fun h => hne (by rw [h])) ?_
      exact Nat.le_antisymm ((hle _ _).1 heq.le) ((hle _ _).1 heq.ge)
    · rw [other_sign hs hnn (by positivity)] at heq
      have h1 := (hle _ _).2 (rnd_nearest (num := num) hd (repmod h0rep))
      rw [d0] at h1
      have h2 : (0 : ℚ) ≤ k / 2 ^ 149 := by positivity
      have h3 : (k : ℚ) / 2 ^ 149 = 0 := by linarith
      rw [h3, mul_zero] at hne
      rw [h3, add_zero, ← d0] at heq
      refine rnd_tie hd (repmod h0rep) (fun h => hne (by rw [← h]; simp)) ?_
      exact Nat.le_antisymm ((hle _ _).1 heq.le) ((hle _ _).1 heq.ge)

end F32
end Rtbvh
