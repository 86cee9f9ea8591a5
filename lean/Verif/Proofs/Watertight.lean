import Verif.Proofs.RelError
import Verif.Proofs.Slab
import Verif.Props.Mbvh
/-
In binary32, for moderate coordinates, the padding by 1e-4 is larger than all the rounding errors of a slab test.
-/
set_option exponentiation.threshold 400

namespace Rtbvh
namespace F32

theorem lit_eps : (lit 1 (-4)).IsFin ∧ |(lit 1 (-4)).val - 1 / 10 ^ 4| ≤ 1 / 10 ^ 11 := by
  obtain ⟨h1, h2, _⟩ := round_err (s := false) (num := 1 * 2 ^ 149) (den := 10 ^ 4) (by norm_num) (by norm_num)
  have e : lit 1 (-4) = round false (1 * 2 ^ 149) (10 ^ 4) := rfl
  rw [e]
  refine ⟨h1, ?_⟩
  have e2 : sgn false * (((1 * 2 ^ 149 : Nat) : ℚ) / ((10 ^ 4 : Nat) : ℚ) / 2 ^ 149) = 1 / 10 ^ 4 := by
    simp only [sgn]; norm_num
  rw [e2] at h2
  refine le_trans h2 ?_
  norm_num

theorem one_val : (FloatOps.one : F32).IsFin ∧ (FloatOps.one : F32).val = 1 := by
  have e : (FloatOps.one : F32) = fin false (2 ^ 149) (by decide +kernel) := by decide +kernel
  rw [e]
  exact ⟨⟨_, _, _, rfl⟩, by simp only [val]; norm_num⟩

/-- The lower side, padded. -/
theorem pad_lo {b : F32} (h : b.Moderate) : (b.sub (lit 1 (-4))).IsFin ∧
    (b.sub (lit 1 (-4))).val ≤ b.val - 87 / 10 ^ 6 ∧ |(b.sub (lit 1 (-4))).val| ≤ 2001 / 10 := by
  obtain ⟨l1, l2⟩ := lit_eps
  obtain ⟨hb, hm⟩ := h
  rw [abs_le] at l2 hm
  have hab : |b.val - (lit 1 (-4)).val| ≤ 20001 / 100 := by
    rw [abs_le]; constructor <;> norm_num at * <;> linarith
  obtain ⟨s1, s2⟩ := sub_err hb l1 (le_trans hab (by norm_num))
  have s3 : |(b.sub (lit 1 (-4))).val - (b.val - (lit 1 (-4)).val)| ≤ 20001 / 100 / 2 ^ 24 :=
    le_trans s2 (div_le_div_of_nonneg_right hab (by positivity))
  rw [abs_le] at s3
  refine ⟨s1, ?_, ?_⟩
  · norm_num at *; linarith
  · rw [abs_le]; constructor <;> norm_num at * <;> linarith

/-- The upper side, padded. -/
theorem pad_hi {b : F32} (h : b.Moderate) : (b.add (lit 1 (-4))).IsFin ∧
    b.val + 87 / 10 ^ 6 ≤ (b.add (lit 1 (-4))).val ∧ |(b.add (lit 1 (-4))).val| ≤ 2001 / 10 := by
  obtain ⟨l1, l2⟩ := lit_eps
  obtain ⟨hb, hm⟩ := h
  rw [abs_le] at l2 hm
  have hab : |b.val + (lit 1 (-4)).val| ≤ 20001 / 100 := by
    rw [abs_le]; constructor <;> norm_num at * <;> linarith
  obtain ⟨s1, s2⟩ := add_err hb l1 (le_trans hab (by norm_num))
  have s3 : |(b.add (lit 1 (-4))).val - (b.val + (lit 1 (-4)).val)| ≤ 20001 / 100 / 2 ^ 24 :=
    le_trans s2 (div_le_div_of_nonneg_right hab (by positivity))
  rw [abs_le] at s3
  refine ⟨s1, ?_, ?_⟩
  · norm_num at *; linarith
  · rw [abs_le]; constructor <;> norm_num at * <;> linarith

/-- The rounded reciprocal, scaled back. -/
theorem recip_err {d : F32} (hd : d.IsFin) (h1 : 1 / 2 ^ 100 ≤ |d.val|) (h2 : |d.val| ≤ 2 ^ 100) :
    (div FloatOps.one d).IsFin ∧ |(div FloatOps.one d).val * d.val - 1| ≤ 1 / 2 ^ 24 + 1 / 2 ^ 50 ∧
    |(div FloatOps.one d).val| ≤ 2 ^ 101 := by
  obtain ⟨o1, o2⟩ := one_val
  have hd0 : d.val ≠ 0 := by
    intro h; rw [h, abs_zero] at h1; norm_num at h1
  have hpos : 0 < |d.val| := abs_pos.2 hd0
  have hinv : |(FloatOps.one : F32).val / d.val| ≤ 2 ^ 100 := by
    rw [o2, abs_div, abs_one, div_le_iff₀ hpos]
    calc (1 : ℚ) = 2 ^ 100 * (1 / 2 ^ 100) := by norm_num
      _ ≤ 2 ^ 100 * |d.val| := by apply mul_le_mul_of_nonneg_left h1 (by positivity)
  obtain ⟨r1, r2⟩ := div_err o1 hd hd0 (le_trans hinv (by norm_num))
  rw [o2] at r2 hinv
  refine ⟨r1, ?_, ?_⟩
  · have e : (div FloatOps.one d).val * d.val - 1 = ((div FloatOps.one d).val - 1 / d.val) * d.val := by
      field_simp
    rw [e, abs_mul]
    have e2 : |1 / d.val| * |d.val| = 1 := by rw [← abs_mul, one_div, inv_mul_cancel₀ hd0, abs_one]
    calc |(div FloatOps.one d).val - 1 / d.val| * |d.val|
        ≤ (|1 / d.val| / 2 ^ 24 + 1 / 2 ^ 150) * |d.val| := mul_le_mul_of_nonneg_right r2 (abs_nonneg _)
      _ = |1 / d.val| * |d.val| / 2 ^ 24 + 1 / 2 ^ 150 * |d.val| := by ring
      _ = 1 / 2 ^ 24 + 1 / 2 ^ 150 * |d.val| := by rw [e2]
      _ ≤ 1 / 2 ^ 24 + 1 / 2 ^ 150 * 2 ^ 100 := by
          have := mul_le_mul_of_nonneg_left h2 (show (0 : ℚ) ≤ 1 / 2 ^ 150 by positivity)
          linarith
      _ = 1 / 2 ^ 24 + 1 / 2 ^ 50 := by norm_num
  · have h3 : |(div FloatOps.one d).val| ≤ |1 / d.val| + |(div FloatOps.one d).val - 1 / d.val| := by
      have := abs_add_le (1 / d.val) ((div FloatOps.one d).val - 1 / d.val)
      rwa [add_sub_cancel] at this
    have h4 : |1 / d.val| / 2 ^ 24 ≤ 2 ^ 100 / 2 ^ 24 := div_le_div_of_nonneg_right hinv (by positivity)
    norm_num at *
    linarith

/-- What the slab test computes for one side of a box, scaled by the direction: the exact distance up to 7.4e-5. -/
theorem prod_err {x o d : F32} (hx : x.IsFin) (ho : o.IsFin) (hD : |x.val - o.val| ≤ 401) (hd : d.IsFin)
    (h1 : 1 / 2 ^ 100 ≤ |d.val|) (h2 : |d.val| ≤ 2 ^ 100) :
    (mul (sub x o) (div FloatOps.one d)).IsFin ∧
    |(mul (sub x o) (div FloatOps.one d)).val * d.val - (x.val - o.val)| ≤ 74 / 10 ^ 6 := by
  obtain ⟨s1, s2⟩ := sub_err hx ho (le_trans hD (by norm_num))
  obtain ⟨r1, r2, r3⟩ := recip_err hd h1 h2
  have s3 : |(sub x o).val - (x.val - o.val)| ≤ 401 / 2 ^ 24 :=
    le_trans s2 (div_le_div_of_nonneg_right hD (by positivity))
  generalize sub x o = D' at *
  generalize div FloatOps.one d = I at *
  have hD' : |D'.val| ≤ 402 := by
    have := abs_add_le (x.val - o.val) (D'.val - (x.val - o.val))
    rw [add_sub_cancel] at this
    norm_num at *; linarith
  have hDI : |D'.val * I.val| ≤ 402 * 2 ^ 101 := by
    rw [abs_mul]; exact mul_le_mul hD' r3 (abs_nonneg _) (by norm_num)
  obtain ⟨m1, m2⟩ := mul_err s1 r1 (le_trans hDI (by norm_num))
  refine ⟨m1, ?_⟩
  generalize mul D' I = E at *
  have hJ : |I.val * d.val| ≤ 2 := by
    have := abs_add_le 1 (I.val * d.val - 1)
    rw [add_sub_cancel, abs_one] at this
    norm_num at *; linarith
  have hJ' : |I.val * d.val| ≤ 10001 / 10000 := by
    have := abs_add_le 1 (I.val * d.val - 1)
    rw [add_sub_cancel, abs_one] at this
    norm_num at *; linarith
  have hDJ : |D'.val * (I.val * d.val)| ≤ 402 * (10001 / 10000) := by
    rw [abs_mul]; exact mul_le_mul hD' hJ' (abs_nonneg _) (by norm_num)
  have hA : |E.val * d.val - D'.val * (I.val * d.val)| ≤ 402 * (10001 / 10000) / 2 ^ 24 + 1 / 2 ^ 50 := by
    have e : E.val * d.val - D'.val * (I.val * d.val) = (E.val - D'.val * I.val) * d.val := by ring
    rw [e, abs_mul]
    calc |E.val - D'.val * I.val| * |d.val| ≤ (|D'.val * I.val| / 2 ^ 24 + 1 / 2 ^ 150) * |d.val| :=
          mul_le_mul_of_nonneg_right m2 (abs_nonneg _)
      _ = |D'.val * (I.val * d.val)| / 2 ^ 24 + 1 / 2 ^ 150 * |d.val| := by
          rw [abs_mul, abs_mul, abs_mul]; ring
      _ ≤ 402 * (10001 / 10000) / 2 ^ 24 + 1 / 2 ^ 150 * 2 ^ 100 := by
          have a1 := div_le_div_of_nonneg_right hDJ (show (0 : ℚ) ≤ 2 ^ 24 by positivity)
          have a2 := mul_le_mul_of_nonneg_left h2 (show (0 : ℚ) ≤ 1 / 2 ^ 150 by positivity)
          linarith
      _ = 402 * (10001 / 10000) / 2 ^ 24 + 1 / 2 ^ 50 := by norm_num
  have hB : |D'.val * (I.val * d.val) - D'.val| ≤ 402 * (1 / 2 ^ 24 + 1 / 2 ^ 50) := by
    have e : D'.val * (I.val * d.val) - D'.val = D'.val * (I.val * d.val - 1) := by ring
    rw [e, abs_mul]
    exact mul_le_mul hD' r2 (abs_nonneg _) (by norm_num)
  rw [abs_le] at hA hB s3 ⊢
  constructor <;> norm_num at * <;> linarith

theorem num_of_fin {x : F32} (h : x.IsFin) : x.isNaN = false := by obtain ⟨_, _, _, rfl⟩ := h; rfl
theorem Below.num {x : F32} {s : ℚ} (h : x.Below s) : x.isNaN = false := by
  rcases h with rfl | ⟨h, _⟩
  · rfl
  · exact num_of_fin h
theorem Above.num {x : F32} {s : ℚ} (h : x.Above s) : x.isNaN = false := by
  rcases h with rfl | ⟨h, _⟩
  · rfl
  · exact num_of_fin h

theorem lt_fin_iff {x y : F32} (hx : x.IsFin) (hy : y.IsFin) : x.lt y = true ↔ x.val < y.val := by
  obtain ⟨_, _, _, rfl⟩ := hx
  obtain ⟨_, _, _, rfl⟩ := hy
  exact (le_val _ _ _ _).2
theorem le_fin_iff {x y : F32} (hx : x.IsFin) (hy : y.IsFin) : x.le y = true ↔ x.val ≤ y.val := by
  obtain ⟨_, _, _, rfl⟩ := hx
  obtain ⟨_, _, _, rfl⟩ := hy
  exact (le_val _ _ _ _).1

theorem isFin_ord_lt {x : F32} (h : x.IsFin) : -(f32Top : Int) < x.ord ∧ x.ord < f32Top := by
  obtain ⟨s, k, h, rfl⟩ := h
  have : k < f32Top := by
    unfold rep at h; simp only [Bool.and_eq_true, decide_eq_true_eq] at h; exact h.2
  cases s <;> simp only [ord] <;> simp <;> omega

theorem lt_of_ord {x y : F32} (hx : x.isNaN = false) (hy : y.isNaN = false) (h : x.ord < y.ord) : x.lt y = true := by
  unfold lt; rw [hx, hy]; simpa using h

theorem Below.lt_above {x y : F32} {s : ℚ} (hx : x.Below s) (hy : y.Above s) : x.lt y = true := by
  rcases hx with rfl | ⟨hx, hx'⟩ <;> rcases hy with rfl | ⟨hy, hy'⟩
  · decide +kernel
  · have := (isFin_ord_lt hy).1
    exact lt_of_ord rfl (num_of_fin hy) (by simpa [ord] using this)
  · have := (isFin_ord_lt hx).2
    exact lt_of_ord (num_of_fin hx) rfl (by simpa [ord] using this)
  · rw [lt_fin_iff hx hy]; linarith

theorem Above.of_fin {x : F32} {s : ℚ} (hx : x.IsFin) (h : s < x.val) : x.Above s := .inr ⟨hx, h⟩
theorem Above.gt {x y : F32} {s : ℚ} (hy : y.Above s) (hx : x.IsFin) (h : x.val ≤ s) : x.lt y = true := by
  rcases hy with rfl | ⟨hy, hy'⟩
  · have := (isFin_ord_lt hx).2
    exact lt_of_ord (num_of_fin hx) rfl (by simpa [ord] using this)
  · rw [lt_fin_iff hx hy]; linarith

theorem lt_le' {x y : F32} (h : x.lt y = true) : x.le y = true := by
  simp only [lt, le, Bool.and_eq_true, decide_eq_true_eq] at h ⊢
  exact ⟨h.1, by omega⟩

/-- Subtraction from a number never gives NaN if the subtrahend is finite. -/
theorem sub_num {x o : F32} (hx : x.isNaN = false) (ho : o.IsFin) : (x.sub o).isNaN = false := by
  obtain ⟨s, k, h, rfl⟩ := ho
  cases x with
  | nan => cases hx
  | inf => rfl
  | fin => simp only [sub, neg, add, ofUnits, round]; split <;> rfl

theorem mul_fin_num {x y : F32} (hx : x.isNaN = false) (hy : y.IsFin) (h0 : y.val ≠ 0) : (x.mul y).isNaN = false := by
  obtain ⟨s, k, h, rfl⟩ := hy
  have hk : k ≠ 0 := by rintro rfl; exact h0 (by simp [val])
  cases x with
  | nan => cases hx
  | inf => simp only [mul, hk, if_false]; rfl
  | fin => simp only [mul, round]; split <;> rfl

theorem mul_inf_num {x : F32} (s : Bool) (hx : x.isNaN = false) (h0 : x.ord ≠ 0) : (x.mul (inf s)).isNaN = false := by
  cases x with
  | nan => cases hx
  | inf => rfl
  | fin s' k h =>
    have hk : k ≠ 0 := by rintro rfl; exact h0 (by simp [ord])
    simp only [mul, hk, if_false]; rfl

theorem mul_inf_neg {x : F32} (s : Bool) (hx : x.IsFin) (h0 : x.val < 0) : x.mul (inf s) = inf (!s) := by
  obtain ⟨s', k, h, rfl⟩ := hx
  rw [val_fin] at h0
  have hk : k ≠ 0 := by rintro rfl; simp at h0
  cases s' with
  | false =>
    simp only [sgn] at h0
    have : (0 : ℚ) ≤ (if false = true then -1 else 1) * ((k : ℚ) / 2 ^ 149) := by
      simp; positivity
    linarith
  | true => simp only [mul, hk, if_false]; cases s <;> rfl

theorem mul_inf_pos {x : F32} (s : Bool) (hx : x.IsFin) (h0 : 0 < x.val) : x.mul (inf s) = inf s := by
  obtain ⟨s', k, h, rfl⟩ := hx
  rw [val_fin] at h0
  have hk : k ≠ 0 := by rintro rfl; simp at h0
  cases s' with
  | true =>
    simp only [sgn] at h0
    have : (if true = true then (-1 : ℚ) else 1) * ((k : ℚ) / 2 ^ 149) ≤ 0 := by
      have : (0 : ℚ) ≤ (k : ℚ) / 2 ^ 149 := by positivity
      simp; linarith
    linarith
  | false => simp only [mul, hk, if_false]; cases s <;> rfl

theorem ord_neg_of_val {x : F32} (hx : x.IsFin) (h : x.val < 0) : x.ord < 0 := by
  rw [val_ord hx] at h
  have : (x.ord : ℚ) < 0 := by
    by_contra hc
    have : (0 : ℚ) ≤ (x.ord : ℚ) / 2 ^ 149 := div_nonneg (by linarith) (by positivity)
    linarith
  exact_mod_cast this
theorem ord_pos_of_val {x : F32} (hx : x.IsFin) (h : 0 < x.val) : 0 < x.ord := by
  rw [val_ord hx] at h
  have : (0 : ℚ) < (x.ord : ℚ) := by
    by_contra hc
    have : (x.ord : ℚ) / 2 ^ 149 ≤ 0 := div_nonpos_of_nonpos_of_nonneg (by linarith) (by positivity)
    linarith
  exact_mod_cast this

/-- One axis of a slab test on a padded box that the exact ray meets at parameter `s`: what is computed for the near side
is below `s`, what is computed for the far side above; which is which is the sign of the direction.  Wider boxes get
numbers, too. -/
theorem axis {blo bhi o d : F32} {s : ℚ} (hlo : blo.Moderate) (hhi : bhi.Moderate) (ho : o.Moderate) (hd : d.Ordinary)
    (h1 : blo.val ≤ o.val + s * d.val) (h2 : o.val + s * d.val ≤ bhi.val) :
    ((((mul (sub (sub blo (lit 1 (-4))) o) (div FloatOps.one d)).Below s ∧
        (mul (sub (add bhi (lit 1 (-4))) o) (div FloatOps.one d)).Above s) ∧
        d.lt FloatOps.zero = false ∧ (d.NoNegZero → le FloatOps.zero (div FloatOps.one d) = true)) ∨
      (((mul (sub (sub blo (lit 1 (-4))) o) (div FloatOps.one d)).Above s ∧
        (mul (sub (add bhi (lit 1 (-4))) o) (div FloatOps.one d)).Below s) ∧
        (d.NoNegZero → d.lt FloatOps.zero = true) ∧ le (div FloatOps.one d) FloatOps.zero = true)) ∧
    (∀ x, le x (sub blo (lit 1 (-4))) = true → (mul (sub x o) (div FloatOps.one d)).isNaN = false) ∧
    (∀ x, le (add bhi (lit 1 (-4))) x = true → (mul (sub x o) (div FloatOps.one d)).isNaN = false) := by
  obtain ⟨l1, l2, l3⟩ := pad_lo hlo
  obtain ⟨u1, u2, u3⟩ := pad_hi hhi
  obtain ⟨hof, hom⟩ := ho
  obtain ⟨hdf, hd⟩ := hd
  generalize sub blo (lit 1 (-4)) = lo at *
  generalize add bhi (lit 1 (-4)) = hi at *
  have hz : (FloatOps.zero : F32).IsFin ∧ (FloatOps.zero : F32).val = 0 := by
    have e : (FloatOps.zero : F32) = fin false 0 (by decide +kernel) := by decide +kernel
    rw [e]; exact ⟨⟨_, _, _, rfl⟩, by simp [val]⟩
  rw [abs_le] at l3 u3 hom
  rcases hd with hd0 | ⟨hd1, hd2⟩
  · -- the direction is zero on this axis
    rw [hd0, mul_zero, add_zero] at h1 h2
    obtain ⟨sg, k, hk, rfl⟩ := hdf
    have hk0 : k = 0 := by
      rw [val_fin] at hd0
      by_contra hne
      have : (0 : ℚ) < k := by exact_mod_cast Nat.pos_of_ne_zero hne
      have h3 : (0 : ℚ) < (k : ℚ) / 2 ^ 149 := by positivity
      have h4 := congrArg (fun q : ℚ => |q|) hd0
      change |_ * _| = |(0 : ℚ)| at h4
      rw [abs_mul, sgn_abs, one_mul, abs_zero, abs_of_pos h3] at h4
      linarith
    subst hk0
    have hinv : div FloatOps.one (fin sg 0 hk) = inf sg := by
      have e : (FloatOps.one : F32) = fin false (2 ^ 149) (by decide +kernel) := by decide +kernel
      rw [e]; cases sg <;> rfl
    have a1 := sub_err l1 hof (by rw [abs_le]; constructor <;> norm_num <;> linarith)
    have a2 := sub_err u1 hof (by rw [abs_le]; constructor <;> norm_num <;> linarith)
    have b1 : (sub lo o).val < 0 := by
      have hneg : lo.val - o.val < 0 := by norm_num at *; linarith
      have := (abs_le.1 a1.2).2
      rw [abs_of_neg hneg] at this
      have h3 : -(lo.val - o.val) / 2 ^ 24 < -(lo.val - o.val) := by
        rw [div_lt_iff₀ (by positivity)]; norm_num; linarith
      linarith
    have b2 : 0 < (sub hi o).val := by
      have hpos : 0 < hi.val - o.val := by norm_num at *; linarith
      have := (abs_le.1 a2.2).1
      rw [abs_of_pos hpos] at this
      have h3 : (hi.val - o.val) / 2 ^ 24 < (hi.val - o.val) := by
        rw [div_lt_iff₀ (by positivity)]; norm_num; linarith
      linarith
    rw [hinv, mul_inf_neg sg a1.1 b1, mul_inf_pos sg a2.1 b2]
    refine ⟨?_, fun x hx => ?_, fun x hx => ?_⟩
    · cases sg with
      | false =>
        refine .inl ⟨⟨.inl rfl, .inl rfl⟩, ?_, fun _ => by decide +kernel⟩
        rfl
      | true =>
        refine .inr ⟨⟨.inl rfl, .inl rfl⟩, fun hn => absurd rfl (hn hk), by decide +kernel⟩
    · have hxn : x.isNaN = false := by
        simp only [le, Bool.and_eq_true] at hx; simpa using hx.1.1
      have hle := LawfulFloat.sub_mono (F := F32) o hx (sub_num hxn hof) (sub_num (num_of_fin l1) hof)
      have := ord_neg_of_val a1.1 b1
      have h5 : (sub x o).ord ≤ (sub lo o).ord := by
        have : le (sub x o) (sub lo o) = true := hle
        simp only [le, Bool.and_eq_true, decide_eq_true_eq] at this; exact this.2
      exact mul_inf_num sg (sub_num hxn hof) (by omega)
    · have hxn : x.isNaN = false := by
        simp only [le, Bool.and_eq_true] at hx; simpa using hx.1.2
      have hle := LawfulFloat.sub_mono (F := F32) o hx (sub_num (num_of_fin u1) hof) (sub_num hxn hof)
      have := ord_pos_of_val a2.1 b2
      have h5 : (sub hi o).ord ≤ (sub x o).ord := by
        have : le (sub hi o) (sub x o) = true := hle
        simp only [le, Bool.and_eq_true, decide_eq_true_eq] at this; exact this.2
      exact mul_inf_num sg (sub_num hxn hof) (by omega)
  · obtain ⟨e1, e2⟩ := prod_err l1 hof (by rw [abs_le]; constructor <;> norm_num at * <;> linarith) hdf hd1 hd2
    obtain ⟨f1, f2⟩ := prod_err u1 hof (by rw [abs_le]; constructor <;> norm_num at * <;> linarith) hdf hd1 hd2
    obtain ⟨r1, r2, _⟩ := recip_err hdf hd1 hd2
    have hIne : (div FloatOps.one d).val ≠ 0 := by
      intro h0; rw [h0, zero_mul, zero_sub, abs_neg, abs_one] at r2; norm_num at r2
    refine ⟨?_, fun x hx => ?_, fun x hx => ?_⟩
    · rw [abs_le] at e2 f2 r2
      have hd0 : d.val ≠ 0 := by
        intro h; rw [h, abs_zero] at hd1; norm_num at hd1
      rcases lt_or_gt_of_ne hd0 with hneg | hpos
      · refine .inr ⟨⟨.inr ⟨e1, ?_⟩, .inr ⟨f1, ?_⟩⟩, fun _ => ?_, ?_⟩
        · have : (mul (sub lo o) (div FloatOps.one d)).val * d.val < s * d.val := by norm_num at *; linarith
          exact (mul_lt_mul_right_of_neg hneg).1 this
        · have : s * d.val < (mul (sub hi o) (div FloatOps.one d)).val * d.val := by norm_num at *; linarith
          exact (mul_lt_mul_right_of_neg hneg).1 this
        · rw [lt_fin_iff hdf hz.1, hz.2]; exact hneg
        · rw [le_fin_iff r1 hz.1, hz.2]
          by_contra hc
          have : (div FloatOps.one d).val * d.val ≤ 0 := mul_nonpos_of_nonneg_of_nonpos (by linarith) hneg.le
          norm_num at *; linarith
      · refine .inl ⟨⟨.inr ⟨e1, ?_⟩, .inr ⟨f1, ?_⟩⟩, ?_, fun _ => ?_⟩
        · have : (mul (sub lo o) (div FloatOps.one d)).val * d.val < s * d.val := by norm_num at *; linarith
          exact (mul_lt_mul_iff_left₀ hpos).1 this
        · have : s * d.val < (mul (sub hi o) (div FloatOps.one d)).val * d.val := by norm_num at *; linarith
          exact (mul_lt_mul_iff_left₀ hpos).1 this
        · rw [← Bool.not_eq_true, lt_fin_iff hdf hz.1, hz.2]; linarith
        · rw [le_fin_iff hz.1 r1, hz.2]
          by_contra hc
          have : (div FloatOps.one d).val * d.val ≤ 0 := mul_nonpos_of_nonpos_of_nonneg (by linarith) hpos.le
          norm_num at *; linarith
    · have hxn : x.isNaN = false := by
        simp only [le, Bool.and_eq_true] at hx; simpa using hx.1.1
      exact mul_fin_num (sub_num hxn hof) r1 hIne
    · have hxn : x.isNaN = false := by
        simp only [le, Bool.and_eq_true] at hx; simpa using hx.1.2
      exact mul_fin_num (sub_num hxn hof) r1 hIne


/-- One of the two is below `s`, the other above. -/
def Apart (x y : F32) (s : ℚ) : Prop := (x.Below s ∧ y.Above s) ∨ (x.Above s ∧ y.Below s)

theorem vmax_choose (x y : F32) : FloatOps.vmax x y = x ∨ FloatOps.vmax x y = y := by
  rw [LawfulFloat.vmax_eq]; split <;> simp
theorem vmin_choose (x y : F32) : FloatOps.vmin x y = x ∨ FloatOps.vmin x y = y := by
  rw [LawfulFloat.vmin_eq]; split <;> simp
theorem Below.vmax {x y : F32} {s : ℚ} (hx : x.Below s) (hy : y.Below s) : (FloatOps.vmax x y).Below s := by
  rcases vmax_choose x y with h | h <;> rw [h] <;> assumption
theorem Above.vmin {x y : F32} {s : ℚ} (hx : x.Above s) (hy : y.Above s) : (FloatOps.vmin x y).Above s := by
  rcases vmin_choose x y with h | h <;> rw [h] <;> assumption
theorem lt_asymm' {x y : F32} (h : x.lt y = true) : y.lt x = false := by
  rw [← Bool.not_eq_true]; intro h'
  simp only [lt, Bool.and_eq_true, decide_eq_true_eq] at h h'
  omega
theorem Apart.mm {x y : F32} {s : ℚ} (h : Apart x y s) :
    (FloatOps.vmin x y).Below s ∧ (FloatOps.vmax x y).Above s := by
  rw [LawfulFloat.vmin_eq, LawfulFloat.vmax_eq]
  change (if x.lt y = true then x else y).Below s ∧ (if y.lt x = true then x else y).Above s
  rcases h with ⟨h1, h2⟩ | ⟨h1, h2⟩
  · have := h1.lt_above h2
    rw [if_pos this, if_neg (by rw [lt_asymm' this]; decide)]; exact ⟨h1, h2⟩
  · have := h2.lt_above h1
    rw [if_pos this, if_neg (by rw [lt_asymm' this]; decide)]; exact ⟨h2, h1⟩

end F32

section box
open FloatOps LawfulFloat

/-- What the padded box of a primitive and all wider boxes look like from a ray that meets the box exactly. -/
structure Seen (a : Aabb F32) (o d : Vec3 F32) (s : ℚ) : Prop where
  valid : (a.offsetBy (lit 1 (-4))).Valid
  noNaN : (a.offsetBy (lit 1 (-4))).NoNaN o (recip3 d)
  wider : ∀ b, (a.offsetBy (lit 1 (-4))).Within b → b.NoNaN o (recip3 d)
  x : F32.Apart (((a.offsetBy (lit 1 (-4))).min.x -. o.x) *. (recip3 d).x)
    (((a.offsetBy (lit 1 (-4))).max.x -. o.x) *. (recip3 d).x) s
  y : F32.Apart (((a.offsetBy (lit 1 (-4))).min.y -. o.y) *. (recip3 d).y)
    (((a.offsetBy (lit 1 (-4))).max.y -. o.y) *. (recip3 d).y) s
  z : F32.Apart (((a.offsetBy (lit 1 (-4))).min.z -. o.z) *. (recip3 d).z)
    (((a.offsetBy (lit 1 (-4))).max.z -. o.z) *. (recip3 d).z) s

theorem pad_valid {blo bhi : F32} (hlo : blo.Moderate) (hhi : bhi.Moderate) (h : blo.val ≤ bhi.val) :
    ((blo -. lit 1 (-4)) <=. (bhi +. lit 1 (-4))) = true := by
  obtain ⟨l1, l2, _⟩ := F32.pad_lo hlo
  obtain ⟨u1, u2, _⟩ := F32.pad_hi hhi
  refine (F32.le_fin_iff l1 u1).2 ?_
  norm_num at *; linarith

theorem seen {a : Aabb F32} {o d : Vec3 F32} {s : ℚ} (ha : a.Moderate) (ho : o.Moderate) (hd : d.Ordinary)
    (h : a.exact.Has (pointOn o d s)) : Seen a o d s := by
  obtain ⟨⟨l1, l2, l3⟩, ⟨u1, u2, u3⟩⟩ := h
  replace l1 := rat_le.1 l1; replace l2 := rat_le.1 l2; replace l3 := rat_le.1 l3
  replace u1 := rat_le.1 u1; replace u2 := rat_le.1 u2; replace u3 := rat_le.1 u3
  simp only [Aabb.exact, Vec3.exact, pointOn] at l1 l2 l3 u1 u2 u3
  have x := F32.axis ha.1.1 ha.2.1 ho.1 hd.1 l1 u1
  have y := F32.axis ha.1.2.1 ha.2.2.1 ho.2.1 hd.2.1 l2 u2
  have z := F32.axis ha.1.2.2 ha.2.2.2 ho.2.2 hd.2.2 l3 u3
  have v1 := pad_valid ha.1.1 ha.2.1 (l1.trans u1)
  have v2 := pad_valid ha.1.2.1 ha.2.2.1 (l2.trans u2)
  have v3 := pad_valid ha.1.2.2 ha.2.2.2 (l3.trans u3)
  have wide : ∀ b, (a.offsetBy (lit 1 (-4))).Within b → b.NoNaN o (recip3 d) := fun b hb =>
    ⟨x.2.1 _ hb.1.1, x.2.2 _ hb.2.1, y.2.1 _ hb.1.2.1, y.2.2 _ hb.2.2.1, z.2.1 _ hb.1.2.2, z.2.2 _ hb.2.2.2⟩
  have ax : ∀ {p q r t : Prop}, ((p ∧ q) ∨ (r ∧ t)) → p ∨ r := fun h => h.imp And.left And.left
  refine ⟨⟨v1, v2, v3⟩, ?_, wide, ax x.1, ax y.1, ax z.1⟩
  refine wide _ ⟨⟨?_, ?_, ?_⟩, ⟨?_, ?_, ?_⟩⟩ <;> refine le_refl ?_
  exacts [(le_num v1).1, (le_num v2).1, (le_num v3).1, (le_num v1).2, (le_num v2).2, (le_num v3).2]

end box
end Rtbvh
