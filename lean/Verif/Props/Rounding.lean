import Verif.Proofs.Rounding
/-
The number model of the `F32` theorems against IEEE-754 (`Spec/Rounding`): every arithmetic operation on finite numbers
returns the correctly rounded exact result.  The special cases (NaN, infinities, zeros) are the equations of
`Model/F32` and are restated at the end.
-/
namespace Rtbvh
namespace F32

theorem round_zero_sign (x : ℚ) {r : F32} {s : Bool} {num den : Nat} (hd : 0 < den) (hr : r = round s num den)
    (hx : x = sgn s * (num / den / 2 ^ 149)) : Rounds x r := by
  subst hr; subst hx; exact round_rounds s num hd

theorem val_ord {a : F32} (ha : ∃ s k h, a = fin s k h) : a.val = (a.ord : ℚ) / 2 ^ 149 := by
  obtain ⟨s, k, h, rfl⟩ := ha
  cases s <;> simp [val, ord]

theorem rounds_ofUnits (z : Int) (b : Bool) : Rounds ((z : ℚ) / 2 ^ 149) (ofUnits z b) := by
  refine round_zero_sign _ (den := 1) (by omega) rfl ?_
  rw [Nat.cast_natAbs, Int.cast_abs, Nat.cast_one, div_one]
  by_cases h0 : z = 0
  · subst h0; simp
  rw [if_neg h0]
  by_cases hn : z < 0
  · have hq : (z : ℚ) < 0 := by exact_mod_cast hn
    simp only [hn, decide_true, sgn, if_true, abs_of_neg hq]; ring
  · have hq : (0 : ℚ) ≤ z := by exact_mod_cast (by omega : 0 ≤ z)
    simp only [hn, decide_false, sgn, abs_of_nonneg hq]; simp

/-- `a + b` for finite `a`, `b`: the exact sum, rounded. -/
theorem add_rounds (s s' : Bool) {k k' : Nat} (h : rep k = true) (h' : rep k' = true) :
    Rounds ((fin s k h).val + (fin s' k' h').val) (add (fin s k h) (fin s' k' h')) := by
  have := rounds_ofUnits ((fin s k h).ord + (fin s' k' h').ord) (s && s')
  rw [val_ord ⟨s, k, h, rfl⟩, val_ord ⟨s', k', h', rfl⟩, ← add_div, ← Int.cast_add]
  exact this

/-- `a - b` for finite `a`, `b`: the exact difference, rounded. -/
theorem sub_rounds (s s' : Bool) {k k' : Nat} (h : rep k = true) (h' : rep k' = true) :
    Rounds ((fin s k h).val - (fin s' k' h').val) (sub (fin s k h) (fin s' k' h')) := by
  have := add_rounds s (!s') h h'
  have e : (fin (!s') k' h').val = -(fin s' k' h').val := by cases s' <;> simp [val] <;> ring
  rw [e, ← sub_eq_add_neg] at this
  exact this

theorem sgn_mul (s s' : Bool) : sgn (s != s') = sgn s * sgn s' := by cases s <;> cases s' <;> simp [sgn]
theorem sgn_div (s s' : Bool) : sgn (s != s') = sgn s / sgn s' := by cases s <;> cases s' <;> simp [sgn]

/-- `a * b` for finite `a`, `b`: the exact product, rounded. -/
theorem mul_rounds (s s' : Bool) {k k' : Nat} (h : rep k = true) (h' : rep k' = true) :
    Rounds ((fin s k h).val * (fin s' k' h').val) (mul (fin s k h) (fin s' k' h')) := by
  refine round_zero_sign _ (num := k * k') (den := 2 ^ 149) (Nat.two_pow_pos _) rfl ?_
  rw [val_fin, val_fin, sgn_mul]
  push_cast
  field_simp
  norm_num
  ring

/-- `a / b` for finite `a` and finite nonzero `b`: the exact quotient, rounded. -/
theorem div_rounds (s s' : Bool) {k k' : Nat} (h : rep k = true) (h' : rep k' = true) (h0 : k' ≠ 0) :
    Rounds ((fin s k h).val / (fin s' k' h').val) (div (fin s k h) (fin s' k' h')) := by
  have hk : (k' : ℚ) ≠ 0 := by exact_mod_cast h0
  have hs : sgn s' ≠ 0 := by cases s' <;> simp [sgn]
  refine round_zero_sign _ (s := s != s') (num := k * 2 ^ 149) (den := k') (by omega) ?_ ?_
  · simp only [div, h0, if_false]
  · rw [val_fin, val_fin, sgn_div]
    push_cast
    field_simp
    norm_num

/-- The literal `m * 10^e` of the source: the exact decimal, rounded. -/
theorem lit_rounds (m e : Int) : Rounds ((m : ℚ) * 10 ^ e) (lit m e) := by
  have hm : sgn (decide (m < 0)) * ((m.natAbs : Nat) : ℚ) = m := by
    rw [Nat.cast_natAbs, Int.cast_abs]
    by_cases hn : m < 0
    · have hq : (m : ℚ) < 0 := by exact_mod_cast hn
      simp [hn, sgn, abs_of_neg hq]
    · have hq : (0 : ℚ) ≤ m := by exact_mod_cast (by omega : 0 ≤ m)
      simp [hn, sgn, abs_of_nonneg hq]
  by_cases he : e ≥ 0
  · refine round_zero_sign _ (s := decide (m < 0)) (num := m.natAbs * 10 ^ e.toNat * 2 ^ 149) (den := 1) (by omega) ?_ ?_
    · simp only [lit, he, if_true]
    · have : ((10 : ℚ) ^ e) = 10 ^ e.toNat := by
        rw [← zpow_natCast, Int.toNat_of_nonneg he]
      rw [this, ← hm]
      push_cast
      field_simp
      norm_num
  · refine round_zero_sign _ (s := decide (m < 0)) (num := m.natAbs * 2 ^ 149) (den := 10 ^ (-e).toNat)
      (Nat.pow_pos (by omega)) ?_ ?_
    · simp only [lit, he, if_false]
    · have : ((10 : ℚ) ^ e) = 1 / 10 ^ (-e).toNat := by
        rw [← zpow_natCast, Int.toNat_of_nonneg (by omega), zpow_neg, one_div, inv_inv]
      rw [this, ← hm]
      push_cast
      field_simp
      norm_num

/-- `n as f32`: rounded. -/
theorem ofNat_rounds (n : Nat) : Rounds (n : ℚ) (FloatOps.ofNat (F := F32) n) := by
  refine round_zero_sign _ (s := false) (num := n * 2 ^ 149) (den := 1) (by omega) rfl ?_
  simp only [sgn, Nat.cast_mul]
  push_cast
  norm_num

/-- Comparisons of finite numbers compare the exact values. -/
theorem le_val (s s' : Bool) {k k' : Nat} (h : rep k = true) (h' : rep k' = true) :
    ((fin s k h).le (fin s' k' h') = true ↔ (fin s k h).val ≤ (fin s' k' h').val) ∧
    ((fin s k h).lt (fin s' k' h') = true ↔ (fin s k h).val < (fin s' k' h').val) := by
  rw [val_ord ⟨s, k, h, rfl⟩, val_ord ⟨s', k', h', rfl⟩, div_le_div_iff_of_pos_right (by positivity),
    div_lt_div_iff_of_pos_right (by positivity), Int.cast_le, Int.cast_lt]
  simp [le, lt, isNaN]

/-- The special cases: NaN is contagious, `inf - inf`, `0 * inf`, `0 / 0` and `inf / inf` are NaN, a nonzero number over
zero is an infinity whose sign is the product of the signs, and an exact zero sum is `-0` only if both operands are. -/
theorem special_values (a : F32) (s s' : Bool) {k : Nat} (h : rep k = true) (hk : k ≠ 0) :
    add nan a = nan ∧ add a nan = nan ∧ mul nan a = nan ∧ mul a nan = nan ∧ div nan a = nan ∧ div a nan = nan ∧
    add (inf s) (inf (!s)) = nan ∧ mul (fin s 0 rfl) (inf s') = nan ∧ mul (inf s') (fin s 0 rfl) = nan ∧
    div (fin s 0 rfl) (fin s' 0 rfl) = nan ∧ div (inf s) (inf s') = nan ∧
    div (fin s k h) (fin s' 0 rfl) = inf (s != s') ∧ div (inf s) (fin s' k h) = inf (s != s') ∧
    mul (inf s) (fin s' k h) = inf (s != s') ∧ add (inf s) (fin s' k h) = inf s ∧
    add (fin s 0 rfl) (fin s' 0 rfl) = fin (s && s') 0 rfl ∧
    le nan a = false ∧ le a nan = false ∧ lt nan a = false ∧ lt a nan = false := by
  refine ⟨by cases a <;> rfl, by cases a <;> rfl, by cases a <;> rfl, by cases a <;> rfl, by cases a <;> rfl,
    by cases a <;> rfl, by cases s <;> rfl, rfl, rfl, rfl, rfl, by simp [div, hk], rfl, by simp [mul, hk], rfl,
    ?_, rfl, by cases a <;> simp [le, isNaN], rfl, by cases a <;> simp [lt, isNaN]⟩
  cases s <;> cases s' <;> decide +kernel

/-- `0.1 + 0.2` in `f32`, a sum that is not representable, is the nearest `f32` to the exact sum of the two operands. -/
example : ∃ s k h s' k' h', lit 1 (-1) = fin s k h ∧ lit 2 (-1) = fin s' k' h' ∧
    add (lit 1 (-1)) (lit 2 (-1)) ≠ nan ∧
    Rounds ((lit 1 (-1)).val + (lit 2 (-1)).val) (add (lit 1 (-1)) (lit 2 (-1))) ∧
    rep ((k : Int) + k').natAbs = false := by
  have e1 : lit 1 (-1) = fin false 71362385698680390680846996795520405043412992 (by decide +kernel) := by decide +kernel
  have e2 : lit 2 (-1) = fin false 142724771397360781361693993591040810086825984 (by decide +kernel) := by decide +kernel
  refine ⟨_, _, _, _, _, _, e1, e2, by decide +kernel, ?_, by decide +kernel⟩
  rw [e1, e2]
  exact add_rounds _ _ _ _

end F32
end Rtbvh
