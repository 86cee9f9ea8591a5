import Verif.Props.Rounding
import Mathlib.Tactic.Linarith
import Mathlib.Tactic.Ring
import Mathlib.Tactic.FieldSimp
import Mathlib.Algebra.Order.Group.Abs
/- The half of a rounded sum is the rounded midpoint (`f32`). -/
namespace Rtbvh
namespace F32

/-- A number that is itself an `f32` is not changed by rounding. -/
theorem Rounds.exact {x : ℚ} {r f : F32} (h : Rounds x r) (hb : |x| < 2 ^ 128 - 2 ^ 103) (hf : ∃ s k h, f = fin s k h)
    (e : f.val = x) : r.val = x := by
  obtain ⟨s, k, hk, rfl⟩ := hf
  have := h.near hb s k hk
  rw [e, sub_self, abs_zero] at this
  have := abs_nonpos_iff.1 this
  linarith

/-- Half a number of at least `2^24` units is again a number, with the same significand. -/
theorem rep_half {k : Nat} (h : rep k = true) (hk : 2 ^ 24 ≤ k) :
    rep (k / 2) = true ∧ 2 * (k / 2) = k ∧ k / 2 / 2 ^ ((k / 2).log2 - 23) = k / 2 ^ (k.log2 - 23) := by
  have h0 : k ≠ 0 := by omega
  have hl : 24 ≤ k.log2 := (Nat.le_log2 h0).2 hk
  unfold rep at h
  simp only [Bool.and_eq_true, beq_iff_eq, decide_eq_true_eq] at h
  obtain ⟨h1, h2⟩ := h
  obtain ⟨l, hl'⟩ : ∃ l, k.log2 = l + 24 := ⟨k.log2 - 24, by omega⟩
  obtain ⟨m, hm⟩ := Nat.dvd_of_mod_eq_zero h1
  rw [hl', show l + 24 - 23 = l + 1 by omega, Nat.pow_succ] at hm
  have hm2 : k / 2 = 2 ^ l * m := by rw [hm, show 2 ^ l * 2 * m = 2 ^ l * m * 2 by ring]; simp
  obtain ⟨b1, b2⟩ := log2_bounds h0
  have hl2 : (k / 2).log2 = l + 23 := by
    have p1 : 2 ^ (l + 24) = 2 * 2 ^ (l + 23) := by ring
    have p2 : 2 ^ (l + 24 + 1) = 4 * 2 ^ (l + 23) := by ring
    have p3 : 2 ^ (l + 23 + 1) = 2 * 2 ^ (l + 23) := by ring
    rw [hl', p1] at b1
    rw [hl', p2] at b2
    refine log2_eq ?_ ?_
    · generalize 2 ^ (l + 23) = p at *; omega
    · rw [p3]; generalize 2 ^ (l + 23) = p at *; omega
  refine ⟨?_, by rw [hm2, hm]; ring, ?_⟩
  · unfold rep
    simp only [Bool.and_eq_true, beq_iff_eq, decide_eq_true_eq]
    refine ⟨?_, by omega⟩
    rw [hl2, show l + 23 - 23 = l by omega, hm2]
    exact Nat.mul_mod_right _ _
  · rw [hl2, hl', show l + 23 - 23 = l by omega, show l + 24 - 23 = l + 1 by omega, Nat.pow_succ, Nat.div_div_eq_div_mul,
      Nat.mul_comm 2]

/-- Twice a number is a number, unless it is too large. -/
theorem rep_double {k : Nat} (h : rep k = true) (hk : 2 * k < f32Top) : rep (2 * k) = true := by
  by_cases hs : k < 2 ^ 23
  · have := rep_mul_pow (m := 2 * k) (e := 0) (by omega) (by omega) (by simpa using hk)
    simpa using this
  have h0 : k ≠ 0 := by omega
  unfold rep at h ⊢
  simp only [Bool.and_eq_true, beq_iff_eq, decide_eq_true_eq] at h ⊢
  refine ⟨?_, hk⟩
  obtain ⟨h1, -⟩ := h
  have hl : 23 ≤ k.log2 := (Nat.le_log2 h0).2 (by omega)
  obtain ⟨b1, b2⟩ := log2_bounds h0
  have : (2 * k).log2 = k.log2 + 1 := log2_eq (by rw [Nat.pow_succ]; omega) (by rw [Nat.pow_succ]; omega)
  rw [this, show k.log2 + 1 - 23 = (k.log2 - 23) + 1 by omega, Nat.pow_succ, Nat.mul_comm _ 2, Nat.mul_mod_mul_left, h1]

theorem half_fin : ∃ h, (FloatOps.lit 5 (-1) : F32) = fin false (2 ^ 148) h := ⟨by decide +kernel, by decide +kernel⟩

theorem val_double (s : Bool) {k : Nat} (h : rep k = true) (h2 : rep (2 * k) = true) :
    (fin s (2 * k) h2).val = 2 * (fin s k h).val := by
  rw [val_fin, val_fin]; push_cast; ring

theorem abs_val (s : Bool) {k : Nat} (h : rep k = true) : |(fin s k h).val| = k / 2 ^ 149 := by
  have : (0 : ℚ) ≤ k / 2 ^ 149 := by positivity
  rw [val_fin]
  cases s <;> simp [sgn, abs_of_nonneg this]

theorem rep_top : rep ((2 ^ 24 - 1) * 2 ^ 253) = true := by decide +kernel

theorem abs_val_le (s : Bool) {k : Nat} (h : rep k = true) : |(fin s k h).val| ≤ 2 ^ 128 - 2 ^ 104 := by
  rw [abs_val, div_le_iff₀ (by positivity)]
  have h1 := rep_le_max h
  have h2 : (k : ℚ) ≤ ((2 ^ 24 - 1) * 2 ^ 253 : Nat) := by exact_mod_cast h1
  refine h2.trans (by norm_num)

/-- No number below `2^128` is as far away from the nearest `f32` as `2^128` is. -/
theorem Rounds.far {x : ℚ} {r : F32} (h : Rounds x r) (hb : |x| < 2 ^ 128 - 2 ^ 103) {y : ℚ} (hy : 2 ^ 128 ≤ |y|) :
    |x - r.val| < |x - y| := by
  have hx := abs_lt.1 hb
  obtain ⟨s, hs⟩ : ∃ s : Bool, (s = false → 2 ^ 128 ≤ y) ∧ (s = true → y ≤ -2 ^ 128) := by
    rcases le_abs.1 hy with h | h
    · exact ⟨false, fun _ => h, fun h => by cases h⟩
    · exact ⟨true, fun h => (by cases h), fun _ => by linarith⟩
  refine (h.near hb s _ rep_top).trans_lt ?_
  have ev : (fin s ((2 ^ 24 - 1) * 2 ^ 253) rep_top).val = sgn s * (2 ^ 128 - 2 ^ 104) := by
    rw [val_fin]; norm_num
  rw [ev]
  cases s with
  | false =>
    have hy := hs.1 rfl
    rw [abs_of_neg (show x - y < 0 by norm_num at *; linarith), abs_lt]
    constructor <;> simp [sgn] <;> norm_num at * <;> linarith
  | true =>
    have hy := hs.2 rfl
    rw [abs_of_pos (show 0 < x - y by norm_num at *; linarith), abs_lt]
    constructor <;> simp [sgn] <;> norm_num at * <;> linarith

/-- The half of a rounded sum, if that did not overflow, is the exact midpoint, rounded once. -/
theorem midpoint_rounds {a b r : F32} (ha : ∃ s k h, a = fin s k h) (hb : ∃ s k h, b = fin s k h) (hr : r = add a b)
    (hf : ∃ s k h, r = fin s k h) : Rounds ((a.val + b.val) / 2) (mul r (FloatOps.lit 5 (-1))) := by
  have hR : Rounds (a.val + b.val) r := by
    obtain ⟨s, k, h, rfl⟩ := ha
    obtain ⟨s', k', h', rfl⟩ := hb
    rw [hr]; exact add_rounds s s' h h'
  obtain ⟨z, hz⟩ : ∃ z : Int, a.val + b.val = z / 2 ^ 149 := by
    refine ⟨a.ord + b.ord, ?_⟩
    rw [val_ord ha, val_ord hb]; push_cast; ring
  obtain ⟨s, k, h, rfl⟩ := hf
  generalize a.val + b.val = x at hR hz
  have hlt : |x| < 2 ^ 128 - 2 ^ 103 := by
    by_contra hc
    cases hR.over (not_lt.1 hc)
  obtain ⟨hh, eh⟩ := half_fin
  have hC : Rounds ((fin s k h).val / 2) (mul (fin s k h) (FloatOps.lit 5 (-1))) := by
    rw [eh]
    have := mul_rounds s false h hh
    rwa [show (fin false (2 ^ 148) hh).val = 1 / 2 by rw [val_fin]; simp [sgn]; norm_num, mul_one_div] at this
  generalize mul (fin s k h) (FloatOps.lit 5 (-1)) = c at hC
  by_cases hsm : z.natAbs < 2 ^ 24
  · have hrz : rep z.natAbs = true := by
      have := rep_mul_pow (m := z.natAbs) (e := 0) (by omega) (by omega) (by unfold f32Top; omega)
      simpa using this
    have : (fin s k h).val = x := hR.exact hlt ⟨decide (z < 0), _, hrz, rfl⟩ (by
      rw [val_fin, hz, ← mul_div_assoc]
      congr 1
      rw [Nat.cast_natAbs, Int.cast_abs]
      by_cases hn : z < 0
      · have hq : (z : ℚ) < 0 := by exact_mod_cast hn
        simp [hn, sgn, abs_of_neg hq]
      · have hq : (0 : ℚ) ≤ z := by exact_mod_cast (by omega : 0 ≤ z)
        simp [hn, sgn, abs_of_nonneg hq])
    rwa [this] at hC
  · have habs : ((2 ^ 24 : Nat) : ℚ) / 2 ^ 149 ≤ |x| := by
      rw [hz, abs_div, abs_of_pos (show (0 : ℚ) < 2 ^ 149 by positivity)]
      refine div_le_div_of_nonneg_right ?_ (by positivity)
      rw [← Int.cast_abs, ← Nat.cast_natAbs]
      exact_mod_cast not_lt.1 hsm
    have hx0 : x ≠ 0 := by
      intro h0; rw [h0, abs_zero] at habs
      have : (0 : ℚ) < ((2 ^ 24 : Nat) : ℚ) / 2 ^ 149 := by positivity
      linarith
    have hsgn : s = decide (x < 0) := by
      obtain ⟨s1, k1, h1, e, hs⟩ := hR.finite hlt
      cases e
      exact hs hx0
    have hk : 2 ^ 24 ≤ k := by
      by_contra hc
      have hc : k < 2 ^ 24 := by omega
      have hkq : (k : ℚ) / 2 ^ 149 < ((2 ^ 24 : Nat) : ℚ) / 2 ^ 149 :=
        div_lt_div_of_pos_right (by exact_mod_cast hc) (by positivity)
      have hn := hR.near hlt s (2 ^ 24) (by decide +kernel)
      have hk0 : (0 : ℚ) ≤ (k : ℚ) / 2 ^ 149 := by positivity
      rw [val_fin, val_fin] at hn
      by_cases hneg : x < 0
      · rw [hsgn] at hn
        simp only [hneg, decide_true, sgn, if_true] at hn
        rw [abs_of_neg hneg] at habs
        rw [abs_of_nonpos (by linarith), abs_of_nonpos (by linarith)] at hn
        linarith
      · rw [hsgn] at hn
        have hn' : (if decide (x < 0) = true then (-1 : ℚ) else 1) = 1 := by simp [hneg]
        simp only [sgn, hn', one_mul] at hn
        rw [abs_of_nonneg (not_lt.1 hneg)] at habs
        rw [abs_of_nonneg (by linarith), abs_of_nonneg (by linarith)] at hn
        linarith
    obtain ⟨hr2, hk2, hsig⟩ := rep_half h hk
    have hdv : (fin s k h).val = 2 * (fin s (k / 2) hr2).val := by
      rw [val_fin, val_fin]
      have : (k : ℚ) = 2 * ((k / 2 : Nat) : ℚ) := by exact_mod_cast hk2.symm
      rw [this]; ring
    have hlim : |(fin s k h).val / 2| < 2 ^ 128 - 2 ^ 103 := by
      rw [abs_div, abs_two]
      have := abs_val_le s h
      norm_num at *
      linarith
    have hcv : c.val = (fin s k h).val / 2 := hC.exact hlim ⟨s, _, hr2, rfl⟩ (by rw [hdv]; ring)
    obtain ⟨sc, kc, hc, rfl, hsc⟩ := hC.finite hlim
    have hkc : kc = k / 2 := by
      have e : |(fin sc kc hc).val| = |(fin s (k / 2) hr2).val| := by rw [hcv, hdv]; congr 1; ring
      rw [abs_val, abs_val, div_left_inj' (by positivity)] at e
      exact_mod_cast e
    have hhalf : ∀ y : ℚ, |x / 2 - y| = |x - 2 * y| / 2 := fun y => by
      rw [show x / 2 - y = (x - 2 * y) / 2 by ring, abs_div, abs_two]
    have h2c : 2 * (fin sc kc hc).val = (fin s k h).val := by rw [hcv]; ring
    have hb2 : |x / 2| < 2 ^ 128 - 2 ^ 103 := by
      rw [abs_div, abs_two]
      have := abs_nonneg x
      norm_num at *
      linarith
    refine ⟨fun ho => absurd hb2 (not_lt.2 ho), fun _ => ⟨sc, kc, hc, rfl, fun _ => ?_⟩, fun _ s' k' h' => ?_,
      fun _ s' k' h' hne he => ?_⟩
    · have hv0 : (fin s k h).val ≠ 0 := by
        rw [← abs_pos, abs_val]
        have : (0 : ℚ) < k := by exact_mod_cast (by omega : 0 < k)
        positivity
      rw [hsc (by simpa using hv0)]
      have e1 : ((fin s k h).val / 2 < 0) ↔ s = true := by
        have hkp : (0 : ℚ) < k / 2 ^ 149 := by
          have : (0 : ℚ) < k := by exact_mod_cast (by omega : 0 < k)
          positivity
        rw [val_fin]
        cases s
        · simp only [sgn]; constructor
          · intro h; simp at h; linarith
          · intro h; cases h
        · simp only [sgn]; constructor
          · intro _; trivial
          · intro _; simp; linarith
      have e2 : (x / 2 < 0) ↔ x < 0 := by constructor <;> intro h <;> linarith
      rw [decide_eq_decide, e1, e2, hsgn]; simp
    · rw [hhalf, hhalf, h2c]
      refine div_le_div_of_nonneg_right ?_ (by norm_num)
      by_cases hd : 2 * k' < f32Top
      · rw [← val_double s' h' (rep_double h' hd)]
        exact hR.near hlt s' (2 * k') (rep_double h' hd)
      · refine (hR.far hlt ?_).le
        rw [abs_mul, abs_two, abs_val, ← mul_div_assoc, le_div_iff₀ (by positivity)]
        have : ((f32Top : Nat) : ℚ) ≤ ((2 * k' : Nat) : ℚ) := by exact_mod_cast not_lt.1 hd
        unfold f32Top at this
        push_cast at this
        exact le_trans (le_of_eq (by rw [← pow_add])) this
    · rw [hhalf, hhalf, h2c] at he
      have he : |x - (fin s k h).val| = |x - 2 * (fin s' k' h').val| := by linarith
      have hev : (fin s k h).EvenSig := by
        by_cases hd : 2 * k' < f32Top
        · refine hR.even hlt s' (2 * k') (rep_double h' hd) ?_ (by rw [val_double s' h' (rep_double h' hd)]; exact he)
          rw [val_double s' h' (rep_double h' hd), ← h2c]
          intro h; exact hne (by linarith)
        · have := hR.far hlt (y := 2 * (fin s' k' h').val) (by
            rw [abs_mul, abs_two, abs_val, ← mul_div_assoc, le_div_iff₀ (by positivity)]
            have : ((f32Top : Nat) : ℚ) ≤ ((2 * k' : Nat) : ℚ) := by exact_mod_cast not_lt.1 hd
            unfold f32Top at this
            push_cast at this
            exact le_trans (le_of_eq (by rw [← pow_add])) this)
          exact absurd he this.ne
      show kc / 2 ^ (kc.log2 - 23) % 2 = 0
      rw [hkc, hsig]
      exact hev

/-- The rounded midpoint of two numbers lies between them. -/
theorem Rounds.between {a b c : F32} (ha : ∃ s k h, a = fin s k h) (hb : ∃ s k h, b = fin s k h) (hab : a.val ≤ b.val)
    (hf : ∃ s k h, c = fin s k h) (h : Rounds ((a.val + b.val) / 2) c) : a.val ≤ c.val ∧ c.val ≤ b.val := by
  have hlt : |(a.val + b.val) / 2| < 2 ^ 128 - 2 ^ 103 := by
    obtain ⟨s, k, hk, rfl⟩ := hf
    by_contra hc
    cases h.over (not_lt.1 hc)
  obtain ⟨s, k, hk, rfl⟩ := ha
  obtain ⟨s', k', hk', rfl⟩ := hb
  constructor
  · by_contra hc
    have := h.near hlt s k hk
    rw [abs_of_nonneg (by linarith), abs_of_nonneg (by linarith)] at this
    linarith
  · by_contra hc
    have := h.near hlt s' k' hk'
    rw [abs_of_nonpos (by linarith), abs_of_nonpos (by linarith)] at this
    linarith

end F32
end Rtbvh
