import Verif.Proofs.F32Laws
import Verif.Proofs.Rounding
/- The padding constant `1e-4` has an effect under rounding below 2048 and none above. -/
namespace Rtbvh
namespace F32

/-- Rounding error below `2^11` (that is `2^160` units): at most half a unit in the last place, `2^135` units. -/
theorem rnd_err {n : Nat} (h : n < 2 ^ 160) : rnd n 1 ≤ n + 2 ^ 135 ∧ n ≤ rnd n 1 + 2 ^ 135 := by
  unfold rnd
  simp only [Nat.div_one, Nat.one_mul]
  have he : n.log2 - 23 ≤ 136 := by
    by_cases h0 : n = 0
    · subst h0; simp
    · have := (Nat.log2_lt h0).2 h; omega
  have hd : 2 ^ (n.log2 - 23) ≤ 2 ^ 136 := Nat.pow_le_pow_right (by omega) he
  have hdm := Nat.div_add_mod n (2 ^ (n.log2 - 23))
  have hr := Nat.mod_lt n (Nat.two_pow_pos (n.log2 - 23))
  generalize 2 ^ (n.log2 - 23) = d at *
  rw [Nat.mul_comm] at hdm
  generalize n % d = r at *
  generalize n / d = m at *
  have e136 : (2 : Nat) ^ 136 = 2 * 2 ^ 135 := by rw [← Nat.pow_succ']
  rw [e136] at hd
  generalize (2 : Nat) ^ 135 = H at *
  split
  · rename_i hc
    have : (m + 1) * d = m * d + d := by rw [Nat.add_mul, Nat.one_mul]
    rw [this]
    omega
  · rename_i hc
    by_cases h1 : d < 2 * r
    · exact absurd (Or.inl h1) hc
    · omega

theorem smag_err {s : Int} (h : s.natAbs < 2 ^ 160) : smag s ≤ s + 2 ^ 135 ∧ s ≤ smag s + 2 ^ 135 := by
  obtain ⟨h1, h2⟩ := rnd_err h
  have hm : mag s.natAbs 1 = rnd s.natAbs 1 := by
    unfold mag
    apply Nat.min_eq_left
    have : (2 : Nat) ^ 160 + 2 ^ 135 ≤ f32Top := by unfold f32Top; decide +kernel
    omega
  unfold smag
  rw [hm]
  split <;> omega

theorem lit_pad : ∃ c h, lit 1 (-4) = fin false c h ∧ 2 ^ 135 < c ∧ c < 2 ^ 136 := by
  refine ⟨rnd (1 * 2 ^ 149) (10 ^ 4), rnd_rep (by decide +kernel), ?_, by decide +kernel, by decide +kernel⟩
  decide +kernel

end F32

/-- A coordinate of magnitude below 2048 is strictly inside its padding by `1e-4`, under binary32 rounding. -/
theorem f32_pad_strict {x : F32} (h : (FloatOps.abs x <. FloatOps.lit 2048 0) = true) :
    (FloatOps.sub x (FloatOps.lit 1 (-4)) <. x) = true ∧ (x <. FloatOps.add x (FloatOps.lit 1 (-4))) = true := by
  obtain ⟨c, hc, e, c1, c2⟩ := F32.lit_pad
  have e2048 : (F32.lit 2048 0).ord = 2 ^ 160 := by decide +kernel
  have s2048 : F32.smag (2 ^ 160) = 2 ^ 160 := by decide +kernel
  have n2048 : F32.smag (-2 ^ 160) = -2 ^ 160 := by decide +kernel
  change F32.lt (F32.abs x) (F32.lit 2048 0) = true at h
  show F32.lt (F32.add x (F32.neg (F32.lit 1 (-4)))) x = true ∧ F32.lt x (F32.add x (F32.lit 1 (-4))) = true
  rw [F32.lt_iff', F32.ord_abs, e2048] at h
  obtain ⟨hn, _, hle⟩ := h
  rw [F32.isNaN_abs] at hn
  rw [e]
  cases x with
  | nan => cases hn
  | inf s =>
    exfalso
    have : (2 : Nat) ^ 160 < f32Top := by unfold f32Top; decide +kernel
    cases s <;> simp [F32.ord] at hle <;> omega
  | fin s k hk =>
    have hk2 : (F32.fin s k hk).ord.natAbs < 2 ^ 160 := by omega
    have hc' : (F32.fin false c hc).ord = (c : Int) := rfl
    have hc'' : (F32.neg (F32.fin false c hc)).ord = -(c : Int) := rfl
    generalize ho : (F32.fin s k hk).ord = o at *
    rw [F32.lt_iff', F32.lt_iff']
    refine ⟨⟨F32.isNaN_ofUnits _ _, rfl, ?_⟩, ⟨rfl, F32.isNaN_ofUnits _ _, ?_⟩⟩
    · simp only [F32.neg, F32.add, F32.ord_ofUnits]
      rw [ho, show (F32.fin (!false) c hc).ord = -(c : Int) from rfl]
      by_cases hb : o + -c ≤ -2 ^ 160
      · have := F32.smag_mono hb
        omega
      · have key2 := F32.smag_err (s := o + -c) (by omega)
        omega
    · simp only [F32.add, F32.ord_ofUnits]
      rw [ho, hc']
      by_cases hb : 2 ^ 160 ≤ o + c
      · have := F32.smag_mono hb
        omega
      · have key1 := F32.smag_err (s := o + c) (by omega)
        omega

namespace F32

/-- From 2048 on, neighbouring representable numbers are `2^137` units (`2^-12`) apart or more. -/
theorem rep_spacing {r k : Nat} (hr : r % 2 ^ (r.log2 - 23) = 0) (hk : k % 2 ^ (k.log2 - 23) = 0) (h : 2 ^ 160 < k)
    (hne : r ≠ k) : r + 2 ^ 137 ≤ k ∨ k + 2 ^ 137 ≤ r := by
  have mult : ∀ {n : Nat}, n % 2 ^ (n.log2 - 23) = 0 → 2 ^ 160 ≤ n → 2 ^ 137 ∣ n := by
    intro n hn hge
    have h2 : 160 ≤ n.log2 := (Nat.le_log2 (by omega)).2 hge
    exact Nat.dvd_trans (Nat.pow_dvd_pow 2 (by omega)) (Nat.dvd_of_mod_eq_zero hn)
  obtain ⟨a, rfl⟩ := mult hk (by omega)
  by_cases hge : 2 ^ 160 ≤ r
  · obtain ⟨b, rfl⟩ := mult hr hge
    omega
  · omega

theorem rnd_absorb {k n : Nat} (hk : rep k = true) (h : 2 ^ 160 < k) (hn : n < k + 2 ^ 136 ∧ k < n + 2 ^ 136) :
    rnd n 1 = k := by
  have hmax := rep_le_max hk
  have hk' : k % 2 ^ (k.log2 - 23) = 0 := by
    simp only [rep, Bool.and_eq_true, beq_iff_eq] at hk; exact hk.1
  have htop : rnd n 1 < f32Top := by
    rw [rnd_overflow (by omega), Nat.one_mul]
    omega
  have hr : rnd n 1 % 2 ^ ((rnd n 1).log2 - 23) = 0 := by
    have := rnd_rep htop
    simp only [rep, Bool.and_eq_true, beq_iff_eq] at this; exact this.1
  have hd := rnd_nearest (num := n) (den := 1) (by omega) hk'
  unfold dist at hd
  by_contra hne
  have := rep_spacing hr hk' h hne
  omega

end F32

/-- Above 2048 the padding has no effect at all: `x + 1e-4` and `x - 1e-4` are `x`. -/
theorem f32_pad_absorbed {x : F32} (h : (FloatOps.lit 2048 0 <. FloatOps.abs x) = true) :
    FloatOps.sub x (FloatOps.lit 1 (-4)) = x ∧ FloatOps.add x (FloatOps.lit 1 (-4)) = x := by
  obtain ⟨c, hc, e, c1, c2⟩ := F32.lit_pad
  have e2048 : (F32.lit 2048 0).ord = 2 ^ 160 := by decide +kernel
  change F32.lt (F32.lit 2048 0) (F32.abs x) = true at h
  show F32.add x (F32.neg (F32.lit 1 (-4))) = x ∧ F32.add x (F32.lit 1 (-4)) = x
  rw [F32.lt_iff', F32.ord_abs, e2048] at h
  obtain ⟨_, hn, hlt⟩ := h
  rw [F32.isNaN_abs] at hn
  rw [e]
  cases x with
  | nan => cases hn
  | inf s => exact ⟨rfl, rfl⟩
  | fin s k hk =>
    have hk2 : 2 ^ 160 < k := by
      cases s <;> simp [F32.ord] at hlt <;> omega
    have key : ∀ z : Int, z.natAbs < k + 2 ^ 136 → k < z.natAbs + 2 ^ 136 → (s = decide (z < 0)) → ∀ b,
        F32.ofUnits z b = F32.fin s k hk := by
      intro z h1 h2 h3 b
      have hz : z ≠ 0 := by intro h0; subst h0; simp at h2; omega
      have hr := F32.rnd_absorb hk hk2 ⟨h1, h2⟩
      unfold F32.ofUnits F32.round
      rw [if_neg hz, dif_pos (by rw [hr]; exact F32.fin_lt_top k hk), ← h3]
      congr 1
    cases s
    · refine ⟨key _ ?_ ?_ ?_ _, key _ ?_ ?_ ?_ _⟩ <;> simp [F32.ord] <;> omega
    · refine ⟨key _ ?_ ?_ ?_ _, key _ ?_ ?_ ?_ _⟩ <;> simp [F32.ord] <;> omega

end Rtbvh
